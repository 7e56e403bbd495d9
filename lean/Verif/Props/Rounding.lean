import Verif.Lemmas.Rounding
import Verif.Props.Kmeans
import Verif.Props.Repro

/-!
# C78: centroids in rounded arithmetic

`Rounds fin val u η M K` (Spec/Rounding.lean) is the standard model of floating-point arithmetic.  With it
the centroids that k-means computes are close to the true means of the rows they stand for, with an explicit
bound that depends only on how many additions a worker and the coordinator do.
-/

namespace Knor.Rounding

open Knor Knor.Par Knor.Partition Knor.Spec Knor.Kmeans Finset

variable {R F D : Type _} {k n : Nat} [Zero R] [Add R] [Div R] [IntCast R] [Field F] [LinearOrder F]
  [IsStrictOrderedRing F] [LinearOrder D] {fin : R → Prop} {val : R → F} {u η M : F} {K : Nat}

omit [Zero R] [Add R] [Div R] [IntCast R] in
theorem memberSum_le (N : Nat) (data : Nat → Row R n) (a : Nat → Option (Fin k)) (c : Fin k) (j : Fin n) :
    memberSum N (fun r j => |val (data r j)|) a c j ≤ ∑ r ∈ range N, |val (data r j)| :=
  Finset.sum_le_sum_of_subset_of_nonneg (Finset.filter_subset _ _) fun _ _ _ => abs_nonneg _

/-- **C78.** After an iteration the centroid of a cluster with `m ≥ 1` members differs from the true mean of
its members by at most `((1+u)^(L+T+1) - 1)` times the mean of their absolute values (plus `η` for
underflow), where `T` is the number of threads and `L = N/T + N%T` the largest number of rows of a thread;
the centroid of an empty cluster is exactly zero.  No sum overflows if the sum of the absolute values is
below `M / (1+u)^(L+T)`. -/
theorem C78_centroid_near_mean (hR : Rounds fin val u η M K) (dist : Row R n → Row R n → D) (big : D)
    (data : Nat → Row R n) (N nt : Nat) (sched : List Nat) (s s' : KState R k n)
    (hn : 0 < N) (hnt : 0 < nt) (hlt : N < 4294967296) (hK : N ≤ K)
    (hc : Complete (effThreads nt N) (threadRows N nt) sched)
    (hfin : ∀ r, r < N → ∀ j, fin (data r j))
    (T L : Nat) (hT : T = effThreads nt N) (hL : L = N / T + N % T)
    (hM : ∀ j, (1 + u) ^ (L + T) * ∑ r ∈ range N, |val (data r j)| ≤ M)
    (hok : iteration dist big data N nt sched s = .ok s') (c : Fin k) (j : Fin n) :
    let members := (range N).filter fun r => s'.assign r = some c
    fin (s'.cltrs.means c j) ∧
    (members.card ≠ 0 →
      |val (s'.cltrs.means c j) - (∑ r ∈ members, val (data r j)) / (members.card : F)| ≤
        ((1 + u) ^ (L + T + 1) - 1) * ((∑ r ∈ members, |val (data r j)|) / (members.card : F)) + η) ∧
    (members.card = 0 → val (s'.cltrs.means c j) = 0) := by
  subst hT hL
  have hu := hR.u_nonneg
  have hsp := split_threadRows hn hnt hlt
  have h := (iteration_ok_any hn hnt hlt hc hok).2
  intro members
  have hp : 0 ≤ (1 + u) ^ (N / effThreads nt N + N % effThreads nt N + effThreads nt N) := by positivity
  have hM' : ∀ a : Nat → Option (Fin k), (1 + u) ^ (N / effThreads nt N + N % effThreads nt N +
      effThreads nt N) * memberSum N (fun r j => |val (data r j)|) a c j ≤ M := fun a =>
    (mul_le_mul_of_nonneg_left (memberSum_le N data a c j) hp).trans (hM j)
  have hM0 : 0 ≤ M := (mul_nonneg hp (Finset.sum_nonneg fun _ _ => abs_nonneg _)).trans (hM j)
  have e1 : s'.cltrs = clustersAny N (effThreads nt N) (threadRows N nt) data s'.assign := by rw [h]
  have e2 : members.card = Spec.count N s'.assign c := rfl
  have g := clustersAny_near hR hsp threadRows_length hK data hfin s'.assign c j (hM' _)
  rw [e1, e2]
  refine ⟨g.1, fun h0 => ?_, fun h0 => (clustersAny_empty hR hsp data hfin s'.assign c j hM0 h0).2⟩
  have := g.2
  unfold memberMean at this
  rw [if_neg h0, if_neg h0] at this
  exact this

/-- **C78 (run).** The same for what a run returns: the sizes are exactly the histogram of the assignments,
the centroids are near the means, and every row is assigned to the nearest, as computed, of the centroids of
the iteration before. -/
theorem C78_run_result (hR : Rounds fin val u η M K) [NatCast R] [LE R] [DecidableLE R]
    (dist : Row R n → Row R n → D) (big : D)
    (data : Nat → Row R n) (N nt : Nat) (tol : R) (maxIters : Nat) (sched : Nat → List Nat)
    (s0 : KState R k n) (res : Result R k n)
    (hn : 0 < N) (hnt : 0 < nt) (hlt : N < 4294967296) (hK : N ≤ K) (hm : 0 < maxIters)
    (hc : ∀ i, Complete (effThreads nt N) (threadRows N nt) (sched i))
    (hfin : ∀ r, r < N → ∀ j, fin (data r j))
    (T L : Nat) (hT : T = effThreads nt N) (hL : L = N / T + N % T)
    (hM : ∀ j, (1 + u) ^ (L + T) * ∑ r ∈ range N, |val (data r j)| ≤ M)
    (hok : run dist big data N nt tol maxIters sched s0 = .ok res) :
    (∀ c, res.state.counts c = (((range N).filter fun r => res.state.assign r = some c).card : Int)) ∧
    (∃ prev : Fin k → Row R n, ∀ r, r < N → ∃ c, res.state.assign r = some c ∧
      IsFirstNearest (fun c => dist (data r) (prev c)) c) ∧
    ∀ c j, let members := (range N).filter fun r => res.state.assign r = some c
      fin (res.state.cltrs.means c j) ∧
      (members.card ≠ 0 →
        |val (res.state.cltrs.means c j) - (∑ r ∈ members, val (data r j)) / (members.card : F)| ≤
          ((1 + u) ^ (L + T + 1) - 1) * ((∑ r ∈ members, |val (data r j)|) / (members.card : F)) + η) ∧
      (members.card = 0 → val (res.state.cltrs.means c j) = 0) := by
  obtain ⟨i, s, he⟩ := run_last hm hok
  refine ⟨(C08_sizes_histogram dist big data N nt (sched i) s res.state hn hnt hlt (hc i) he).1, ⟨s.cltrs.means, ?_⟩,
    fun c j => C78_centroid_near_mean hR dist big data N nt (sched i) s res.state hn hnt hlt hK (hc i) hfin T L
      hT hL hM he c j⟩
  obtain ⟨hb, h⟩ := iteration_ok_any hn hnt hlt (hc i) he
  obtain ⟨s'', e, h'⟩ := (C06_nearest_centroid dist big data N nt (sched i) s hn hnt hlt (hc i)).1 hb
  rw [he] at e
  cases e
  exact h'

omit [LinearOrder D] in
/-- **C78 (single members).** If adding zero to a row changes nothing, the centroid of a cluster with one
member is that member exactly. -/
theorem C78_single_member_exact [LinearOrder D] (dist : Row R n → Row R n → D) (big : D)
    (data : Nat → Row R n) (N nt : Nat) (sched : List Nat) (s s' : KState R k n)
    (hn : 0 < N) (hnt : 0 < nt) (hlt : N < 4294967296)
    (hc : Complete (effThreads nt N) (threadRows N nt) sched)
    (h00 : (0 : R) + 0 = 0) (hz : ∀ r, r < N → ∀ j, 0 + data r j = data r j ∧ data r j + 0 = data r j)
    (hok : iteration dist big data N nt sched s = .ok s') (c : Fin k) (r : Nat) (hr : r < N)
    (hone : ∀ r', r' < N → (s'.assign r' = some c ↔ r' = r)) :
    s'.cltrs.means c = data r := by
  funext j
  have h := (iteration_ok_any hn hnt hlt hc hok).2
  have e1 : s'.cltrs = clustersAny N (effThreads nt N) (threadRows N nt) data s'.assign := by rw [h]
  rw [e1]
  exact clustersAny_single (split_threadRows hn hnt hlt) data s'.assign c j hr h00 (hz r hr j).1 (hz r hr j).2 hone

/-- Zero is neutral for the rows of the examples below. -/
example : ∀ r, r < 4 → ∀ j, 0 + Repro.demoData r j = Repro.demoData r j ∧
    Repro.demoData r j + 0 = Repro.demoData r j := by
  intro r hr j
  have : r = 0 ∨ r = 1 ∨ r = 2 ∨ r = 3 := by omega
  have hj : j = 0 := Subsingleton.elim _ _
  subst hj
  rcases this with rfl | rfl | rfl | rfl <;> decide +kernel

/-! ### The three-bit arithmetic of Props/Repro.lean satisfies the hypotheses -/

open Knor.Repro (Fl)

theorem rnd_err (q : ℚ) : |Fl.rnd q - q| ≤ 1/8 * |q| ∨ |q| < 4 ∧ |Fl.rnd q - q| ≤ 1/4 := by
  have key : ∀ g : ℚ, 0 < g → |g * (Rat.floor (q / g + 1/2) : Int) - q| ≤ g / 2 := by
    intro g hg
    have h1 : ((Rat.floor (q / g + 1/2) : Int) : ℚ) ≤ q / g + 1/2 := Rat.floor_le _
    have h2 : q / g + 1/2 < ((Rat.floor (q / g + 1/2) : Int) : ℚ) + 1 := by
      exact_mod_cast Rat.lt_floor_add_one (q / g + 1/2)
    have e : q = g * (q / g) := by field_simp
    rw [abs_le]
    constructor <;> nlinarith
  unfold Fl.rnd
  dsimp only
  by_cases h1 : -4 < q ∧ q < 4
  · right
    rw [if_pos h1]
    exact ⟨abs_lt.2 h1, (key (1/2) (by norm_num)).trans (by norm_num)⟩
  · left
    have h4 : 4 ≤ |q| := by
      by_contra h
      exact h1 (abs_lt.1 (not_le.1 h))
    rw [if_neg h1]
    by_cases h2 : -8 < q ∧ q < 8
    · rw [if_pos h2]
      exact (key 1 (by norm_num)).trans (by linarith)
    · have h8 : 8 ≤ |q| := by
        by_contra h
        exact h2 (abs_lt.1 (not_le.1 h))
      rw [if_neg h2]
      exact (key 2 (by norm_num)).trans (by linarith)

/-- Finite numbers of the three-bit arithmetic: multiples of 1/2. -/
def flFin (x : Fl) : Prop := ∃ z : Int, x.val = some (z / 2 : ℚ)
/-- Their values. -/
def flVal (x : Fl) : ℚ := x.val.getD 0

theorem rnd_half (z : Int) (h : |(z / 2 : ℚ)| < 4) : Fl.rnd (z / 2) = z / 2 := by
  unfold Fl.rnd
  dsimp only
  rw [if_pos (abs_lt.1 h)]
  have : (z / 2 : ℚ) / (1/2) + 1/2 = z + 1/2 := by ring
  rw [this]
  have h2 : Rat.floor ((z : ℚ) + 1/2) = z := by
    apply le_antisymm
    · exact Int.lt_add_one_iff.1 (Rat.floor_lt_iff.2 (by push_cast; linarith))
    · exact Rat.le_floor_iff.2 (by linarith)
  rw [h2]; ring

theorem rnd_fin (q : ℚ) : ∃ z : Int, Fl.rnd q = (z / 2 : ℚ) := by
  unfold Fl.rnd
  dsimp only
  split
  · exact ⟨_, by rw [div_eq_mul_inv]; ring⟩
  · split
    · exact ⟨2 * (Rat.floor (q / 1 + 1/2) : Int), by push_cast; ring⟩
    · exact ⟨4 * (Rat.floor (q / 2 + 1/2) : Int), by push_cast; ring⟩

theorem flFin_rnd (q : ℚ) : flFin ⟨some (Fl.rnd q)⟩ := by
  obtain ⟨z, h⟩ := rnd_fin q
  exact ⟨z, by rw [h]⟩

theorem fl_rounds (M : ℚ) : Rounds flFin flVal (1/8 : ℚ) (1/4) M 8 where
  u_nonneg := by norm_num
  eta_nonneg := by norm_num
  zero := ⟨⟨0, by simp only [Int.cast_zero, zero_div]; rfl⟩, rfl⟩
  add := by
    rintro ⟨x⟩ ⟨y⟩ ⟨z, hz⟩ ⟨w, hw⟩ _
    simp only at hz hw
    subst hz hw
    have e : (⟨some (z / 2 : ℚ)⟩ : Fl) + ⟨some (w / 2 : ℚ)⟩ = ⟨some (Fl.rnd (z / 2 + w / 2))⟩ := rfl
    rw [e]
    refine ⟨flFin_rnd _, ?_⟩
    change |Fl.rnd (z / 2 + w / 2) - (z / 2 + w / 2)| ≤ 1/8 * |(z / 2 + w / 2 : ℚ)|
    have es : (z / 2 + w / 2 : ℚ) = ((z + w : Int) : ℚ) / 2 := by push_cast; ring
    rcases rnd_err (z / 2 + w / 2) with h | ⟨h, _⟩
    · exact h
    · rw [es] at h ⊢
      rw [rnd_half _ h, sub_self, abs_zero]
      positivity
  div := by
    rintro ⟨x⟩ ⟨y⟩ ⟨z, hz⟩ ⟨w, hw⟩ h0 _
    simp only at hz hw
    subst hz hw
    have h0' : (w / 2 : ℚ) ≠ 0 := h0
    have e : (⟨some (z / 2 : ℚ)⟩ : Fl) / ⟨some (w / 2 : ℚ)⟩ = ⟨some (Fl.rnd (z / 2 / (w / 2)))⟩ := by
      change (⟨Option.map Fl.rnd (if (w / 2 : ℚ) = 0 then none else some (z / 2 / (w / 2)))⟩ : Fl) = _
      rw [if_neg h0']; rfl
    rw [e]
    refine ⟨flFin_rnd _, ?_⟩
    change |Fl.rnd (z / 2 / (w / 2)) - (z / 2 / (w / 2))| ≤ 1/8 * |(z / 2 / (w / 2) : ℚ)| + 1/4
    rcases rnd_err (z / 2 / (w / 2)) with h | ⟨_, h⟩
    · linarith
    · have := abs_nonneg (z / 2 / (w / 2) : ℚ)
      linarith
  cast := by
    intro m hm
    have e : flVal (((m : Int) : Int) : Fl) = (m : ℚ) := by
      have : m = 0 ∨ m = 1 ∨ m = 2 ∨ m = 3 ∨ m = 4 ∨ m = 5 ∨ m = 6 ∨ m = 7 ∨ m = 8 := by omega
      rcases this with rfl | rfl | rfl | rfl | rfl | rfl | rfl | rfl | rfl <;> decide +kernel
    exact ⟨flFin_rnd _, e⟩

/-- Values of the example. -/
def flData (r : Nat) : Row Fl 1 := Repro.demoData r

/-- One cluster, two threads: the computed centroid 5/2 of the rows 8, 0, 1, 1 (true mean 5/2); one thread:
3.  Both are within the bound, which is `((9/8)^6 - 1) * 5/2 + 1/4` for one thread. -/
example (sched : List Nat) (hc : Complete (effThreads 1 4) (threadRows 4 1) sched) (s s' : KState Fl 1 1)
    (hok : iteration (fun _ _ => (0 : ℚ)) 1 flData 4 1 sched s = .ok s') :
    |flVal (s'.cltrs.means 0 0) - 5/2| ≤ ((9/8 : ℚ) ^ 6 - 1) * (5/2) + 1/4 := by
  have h := C78_centroid_near_mean (fl_rounds 100) (fun _ _ => (0 : ℚ)) 1 flData 4 1 sched s s' (by omega) (by omega)
    (by omega) (by omega) hc
    (by
      intro r hr j
      unfold flData Repro.demoData
      split
      · exact flFin_rnd _
      · split <;> exact flFin_rnd _)
    1 4 (by decide) (by decide)
    (by
      intro j
      have : j = 0 := Subsingleton.elim _ _
      subst this
      decide +kernel) hok 0 0
  have hall : (range 4).filter (fun r => s'.assign r = some 0) = range 4 := by
    apply Finset.filter_true_of_mem
    intro r hr
    obtain ⟨hb, e⟩ := iteration_ok_any (by omega) (by omega) (by omega) hc hok
    obtain ⟨c, hcc⟩ := emScan_exists (hb r (Finset.mem_range.1 hr))
    have : c = 0 := Subsingleton.elim _ _
    subst this
    rw [e]
    simp only [newAssign, Finset.mem_range.1 hr, if_true]
    exact hcc
  rw [hall] at h
  have h2 := h.2.1 (by decide)
  have e1 : (∑ r ∈ range 4, flVal (flData r 0)) / ((range 4).card : ℚ) = 5/2 := by decide +kernel
  have e2 : (∑ r ∈ range 4, |flVal (flData r 0)|) / ((range 4).card : ℚ) = 5/2 := by decide +kernel
  rw [e1, e2] at h2
  norm_num at h2 ⊢
  exact h2

/-- The hypothesis of the example is met: the iteration returns, with the centroid 3. -/
example : (iteration (fun _ _ => (0 : ℚ)) 1 flData 4 1 [0, 0, 0, 0]
      { cltrs := Clusters.empty, assign := fun _ => none, counts := fun _ => 0, changed := 0 }).map
    (fun s : KState Fl 1 1 => flVal (s.cltrs.means 0 0)) = .ok 3 := by decide +kernel

/-- Exact arithmetic is the case `u = 0`, `η = 0`. -/
example (M : ℚ) (K : Nat) : Rounds (fun _ : ℚ => True) id 0 0 M K where
  u_nonneg := le_rfl
  eta_nonneg := le_rfl
  zero := ⟨trivial, rfl⟩
  add := fun _ _ _ _ _ => ⟨trivial, by simp⟩
  div := fun _ _ _ _ _ _ => ⟨trivial, by simp⟩
  cast := fun m _ => ⟨trivial, by simp⟩

/-- Rows of the following theorem. -/
def driftData (r : Nat) : Row Fl 1 := fun _ => .of ([5, 1, 7, 15, 2].getD r 0)

/-- **C78, limit.** With pruning the sums are kept up to date by adding and subtracting rows and by
multiplying the rounded mean with the count, so errors build up from iteration to iteration: in this run
(three-bit arithmetic, rows 5, 1, 7, 16, 2, start at 5 and 1) cluster 0 ends with the single member 16 and the
centroid 22.  The unpruned version returns the member itself (`C78_single_member_exact`). -/
theorem C78_limit_pruned_drifts :
    ∃ (sched : Nat → List Nat) (res : Prune.Result Fl Fl 2 1),
      (∀ i, Complete (effThreads 1 5) (Prune.taskRows 5 1) (sched i)) ∧
      Omp.pthreadP (S := Unit) Repro.demoDist Repro.demoDist (.of 100) driftData 5 1 sched (.of (-1)) 6 sched
        (.none fun c _ => if c = 0 then .of 5 else .of 1) = .ok res ∧
      (∀ r, r < 5 → ((res.state.slots r).assign = some 0 ↔ r = 3)) ∧
      flVal (driftData 3 0) = 16 ∧ flVal (res.state.cltrs.means 0 0) = 22 := by
  have h : (Omp.pthreadP (S := Unit) Repro.demoDist Repro.demoDist (.of 100) driftData 5 1
      (fun _ => [0, 0, 0, 0, 0]) (.of (-1)) 6 (fun _ => [0, 0, 0, 0, 0])
      (.none fun c _ => if c = (0 : Fin 2) then .of 5 else .of 1)).map
      (fun r => ((List.range 5).map fun i => (r.state.slots i).assign, flVal (r.state.cltrs.means 0 0)))
      = .ok ([some 1, some 1, some 1, some 0, some 1], 22) := by decide +kernel
  obtain ⟨res, e, m⟩ : ∃ r, Omp.pthreadP (S := Unit) Repro.demoDist Repro.demoDist (.of 100) driftData 5 1
      (fun _ => [0, 0, 0, 0, 0]) (.of (-1)) 6 (fun _ => [0, 0, 0, 0, 0])
      (.none fun c _ => if c = (0 : Fin 2) then .of 5 else .of 1) = .ok r ∧
      ((List.range 5).map (fun i => (r.state.slots i).assign), flVal (r.state.cltrs.means 0 0))
        = ([some 1, some 1, some 1, some 0, some 1], 22) := by
    revert h
    cases Omp.pthreadP (S := Unit) Repro.demoDist Repro.demoDist (.of 100) driftData 5 1
      (fun _ => [0, 0, 0, 0, 0]) (.of (-1)) 6 (fun _ => [0, 0, 0, 0, 0])
      (.none fun c _ => if c = (0 : Fin 2) then .of 5 else .of 1) with
    | error e => intro h; cases h
    | ok r => intro h; exact ⟨r, rfl, Except.ok.inj h⟩
  refine ⟨fun _ => [0, 0, 0, 0, 0], res, ?_, e, ?_, by decide +kernel, (Prod.mk.inj m).2⟩
  · intro i t ht
    have : t = 0 := by
      have : effThreads 1 5 = 1 := by decide
      omega
    subst this
    change (Prune.taskRows 5 1 0).length ≤ List.count 0 [0, 0, 0, 0, 0]
    decide
  · have m1 := (Prod.mk.inj m).1
    simp only [show List.range 5 = [0, 1, 2, 3, 4] from rfl, List.map_cons, List.map_nil, List.cons.injEq,
      and_true] at m1
    obtain ⟨a0, a1, a2, a3, a4⟩ := m1
    intro r hr
    have : r = 0 ∨ r = 1 ∨ r = 2 ∨ r = 3 ∨ r = 4 := by omega
    rcases this with rfl | rfl | rfl | rfl | rfl
    · rw [a0]; decide
    · rw [a1]; decide
    · rw [a2]; decide
    · rw [a3]; decide
    · rw [a4]; decide

end Knor.Rounding
