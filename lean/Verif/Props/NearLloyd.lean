import Verif.Lemmas.NearLloyd
import Verif.Lemmas.Double
import Verif.Props.Rounding

/-!
# Property C97: k-means in floating-point arithmetic is nearly Lloyd's algorithm

C12 says that a run is Lloyd's algorithm if arithmetic is exact.  With rounding it cannot be: rows that are
almost equally far from two centroids may go to the wrong one, and centroids are only near the means (C78).  The
theorems of this file say that nothing worse happens, for the whole run: under the standard model of
floating-point arithmetic (`RoundsAll`, Spec/NearLloyd.lean; IEEE double satisfies it with `u = 2^-53`,
`η = 2^-1075`, `M` the largest double, `K = 2^53`) and if the numbers are small enough not to overflow, no
assertion fires, no number becomes infinite or NaN, every row always goes to a centroid that is nearest up to a
relative error of about `(n+3) u`, and every centroid is the mean of its members up to a relative error of about
`(N/T + T) u`.
-/

namespace Knor.NearLloyd

open Knor Knor.Par Knor.Partition Knor.Spec Knor.Kmeans

variable {R F : Type _} {k n : Nat} [Zero R] [Add R] [Sub R] [Mul R] [Div R] [IntCast R] [LT R] [DecidableLT R]
  [NatCast R] [LE R] [DecidableLE R]

section General

variable [Field F] [LinearOrder F] [IsStrictOrderedRing F] {fin : R → Prop} {val : R → F} {u η M X B : F}
  {K : Nat}

/-- The general case, for a distance with known error. -/
theorem run_near (hA : RoundsAll fin val u η M K) (hk : 0 < k) {dist : Row R n → Row R n → R} {big : R}
    {dF : (Fin n → F) → (Fin n → F) → F} {γ ζ : F} (hD : DistRounds fin val B dist big dF γ ζ)
    {data : Nat → Row R n} {N nt : Nat} {tol : R} {maxIters : Nat} {sched : Nat → List Nat}
    {s0 : KState R k n} (hS : Sizes fin val u η M X B K N nt data)
    (h0 : ∀ c, InBox fin val B (s0.cltrs.means c)) (hm : 0 < maxIters)
    (hc : ∀ i, Complete (effThreads nt N) (threadRows N nt) (sched i)) :
    ∃ res, Kmeans.run dist big data N nt tol maxIters sched s0 = .ok res ∧
      NearLloydResult fin val dF γ ζ
        ((1 + u) ^ (N / effThreads nt N + N % effThreads nt N + effThreads nt N + 1) - 1) η N data
        s0.cltrs.means tol maxIters res.iters res.state.assign res.state.counts res.state.cltrs.means := by
  have hconv : ∀ ch : Nat, convTest N tol ch = true ↔ (ch = 0 ∨ (ch : R) / (N : R) ≤ tol) := by
    intro ch; unfold convTest; simp
  obtain ⟨res, m, h1, h2, h3, h4, h5, h6⟩ := loop_trace hA hk hD hS h0 tol maxIters sched hc hm (maxIters + 1) 0 s0
    (by omega) (by omega) ⟨rfl, fun h => absurd rfl h⟩ (fun j h h' => by omega)
  refine ⟨res, ?_, m, fun i => snapVal val (trRun dist big data N nt s0.cltrs.means i), h2, h3,
    ⟨rfl, fun _ => rfl, fun i _ => trRun_step hA hk hD hS h0 i⟩, ?_, ?_, ?_, ?_, ?_, ?_⟩
  · unfold Kmeans.run
    rw [if_pos hm]
    exact h1
  · intro i hi hi' hs
    exact Bool.false_ne_true ((h5 i hi hi').symm.trans ((hconv _).2 hs))
  · rcases h6 with ⟨h, h'⟩ | ⟨h, h', h''⟩
    · exact Or.inl ⟨(hconv _).1 h, h'⟩
    · refine Or.inr ⟨fun hs => ?_, h', h''⟩
      exact Bool.false_ne_true (h.symm.trans ((hconv _).2 hs))
  · intro r _
    rw [(h4.later (by omega)).1]
    rfl
  · intro c
    rw [(h4.later (by omega)).1]
    exact (h4.later (by omega)).2.1 c
  · intro c j
    rw [h4.means]
    exact ⟨(trRun_box hA.toRounds hS h0 m c j).1, rfl⟩
  · intro hch r hr
    have e := trRun_fixed hA hk hD hS h0 h2 hch
    obtain ⟨i, rfl⟩ : ∃ i, m = i + 1 := ⟨m - 1, by omega⟩
    obtain ⟨c, hc1, hc2⟩ := (trRun_step hA hk hD hS h0 i).assigned r hr
    rw [(h4.later (by omega)).1]
    refine ⟨c, hc1, ?_⟩
    rw [Nat.add_sub_cancel] at e
    rw [h4.means, ← e]
    exact hc2

/-- **C97 (squared Euclidean distance).** `T` threads, `L = N/T + N%T`; rows are at most `X` in size, the start
and `(1+u)^(L+T+1) X + η` at most `B`, and `big`, the initial "best distance" of the code, is above
`(1+u)^n n ((1+u)^3 (2B)^2 + η)`. -/
theorem C97_sqeucl (hA : RoundsAll fin val u η M K) (hk : 0 < k) (big : R) (data : Nat → Row R n) (N nt : Nat)
    (tol : R) (maxIters : Nat) (sched : Nat → List Nat) (s0 : KState R k n)
    (hn : 0 < N) (hnt : 0 < nt) (hlt : N < 4294967296) (hK : N ≤ K) (hm : 0 < maxIters)
    (hc : ∀ i, Complete (effThreads nt N) (threadRows N nt) (sched i))
    (T L : Nat) (hT : T = effThreads nt N) (hL : L = N / T + N % T)
    (hX : ∀ r, r < N → InBox fin val X (data r)) (hXB : X ≤ B)
    (h0 : ∀ c, InBox fin val B (s0.cltrs.means c))
    (hmean : (1 + u) ^ (L + T + 1) * X + η ≤ B) (hsum : (1 + u) ^ (L + T) * (N * X) ≤ M)
    (hB : 2 * B ≤ M) (hB2 : (1 + u) ^ 2 * (2 * B) ^ 2 ≤ M) (hbig : fin big) (hbM : val big ≤ M)
    (hdist : (1 + u) ^ n * (n * ((1 + u) ^ 3 * (2 * B) ^ 2 + η)) < val big) :
    ∃ res, Kmeans.run Dist.sqeuclAny big data N nt tol maxIters sched s0 = .ok res ∧
      NearLloydResult fin val sqDistance ((1 + u) ^ (n + 3) - 1) ((1 + u) ^ n * (n * η))
        ((1 + u) ^ (L + T + 1) - 1) η N data
        s0.cltrs.means tol maxIters res.iters res.state.assign res.state.counts res.state.cltrs.means := by
  subst hT hL
  exact run_near hA hk (distRounds_sq hA hbig hB hB2 hbM hdist) ⟨hn, hnt, hlt, hK, hX, hXB, hmean, hsum⟩ h0 hm hc

/-- **C97 (taxicab distance).** `ab` is `std::abs`. -/
theorem C97_taxi (hA : RoundsAll fin val u η M K) (hk : 0 < k) (ab : R → R)
    (hab : ∀ x, fin x → fin (ab x) ∧ val (ab x) = |val x|) (big : R) (data : Nat → Row R n) (N nt : Nat)
    (tol : R) (maxIters : Nat) (sched : Nat → List Nat) (s0 : KState R k n)
    (hn : 0 < N) (hnt : 0 < nt) (hlt : N < 4294967296) (hK : N ≤ K) (hm : 0 < maxIters)
    (hc : ∀ i, Complete (effThreads nt N) (threadRows N nt) (sched i))
    (T L : Nat) (hT : T = effThreads nt N) (hL : L = N / T + N % T)
    (hX : ∀ r, r < N → InBox fin val X (data r)) (hXB : X ≤ B)
    (h0 : ∀ c, InBox fin val B (s0.cltrs.means c))
    (hmean : (1 + u) ^ (L + T + 1) * X + η ≤ B) (hsum : (1 + u) ^ (L + T) * (N * X) ≤ M)
    (hB : 2 * B ≤ M) (hbig : fin big) (hbM : val big ≤ M)
    (hdist : (1 + u) ^ n * (n * ((1 + u) * (2 * B))) < val big) :
    ∃ res, Kmeans.run (Dist.taxiAny ab) big data N nt tol maxIters sched s0 = .ok res ∧
      NearLloydResult fin val taxiDistance ((1 + u) ^ (n + 1) - 1) 0
        ((1 + u) ^ (L + T + 1) - 1) η N data
        s0.cltrs.means tol maxIters res.iters res.state.assign res.state.counts res.state.cltrs.means := by
  subst hT hL
  exact run_near hA hk (distRounds_taxi hA hab hbig hB hbM hdist) ⟨hn, hnt, hlt, hK, hX, hXB, hmean, hsum⟩ h0 hm hc

end General

/-- **C97 (Euclidean distance).** `sqrt` is `std::sqrt`, correctly rounded. -/
theorem C97_eucl {fin : R → Prop} {val : R → ℝ} {u η M X B : ℝ} {K : Nat}
    (hA : RoundsAll fin val u η M K) (hk : 0 < k) (sqrt : R → R)
    (hsqrt : ∀ x, fin x → 0 ≤ val x → fin (sqrt x) ∧ |val (sqrt x) - √(val x)| ≤ u * √(val x))
    (big : R) (data : Nat → Row R n) (N nt : Nat)
    (tol : R) (maxIters : Nat) (sched : Nat → List Nat) (s0 : KState R k n)
    (hn : 0 < N) (hnt : 0 < nt) (hlt : N < 4294967296) (hK : N ≤ K) (hm : 0 < maxIters)
    (hc : ∀ i, Complete (effThreads nt N) (threadRows N nt) (sched i))
    (T L : Nat) (hT : T = effThreads nt N) (hL : L = N / T + N % T)
    (hX : ∀ r, r < N → InBox fin val X (data r)) (hXB : X ≤ B)
    (h0 : ∀ c, InBox fin val B (s0.cltrs.means c))
    (hmean : (1 + u) ^ (L + T + 1) * X + η ≤ B) (hsum : (1 + u) ^ (L + T) * (N * X) ≤ M)
    (hB : 2 * B ≤ M) (hB2 : (1 + u) ^ 2 * (2 * B) ^ 2 ≤ M) (hbig : fin big)
    (hdist : (1 + u) ^ n * (n * ((1 + u) ^ 3 * (2 * B) ^ 2 + η)) ≤ M)
    (hdist2 : (1 + u) * √((1 + u) ^ n * (n * ((1 + u) ^ 3 * (2 * B) ^ 2 + η))) < val big) :
    ∃ res, Kmeans.run (Dist.euclAny sqrt) big data N nt tol maxIters sched s0 = .ok res ∧
      NearLloydResult fin val (fun x y => √(sqDistance x y)) ((1 + u) ^ (n + 4) - 1)
        ((1 + u) * √((1 + u) ^ n * (n * η))) ((1 + u) ^ (L + T + 1) - 1) η N data
        s0.cltrs.means tol maxIters res.iters res.state.assign res.state.counts res.state.cltrs.means := by
  subst hT hL
  exact run_near hA hk (distRounds_eucl hA hsqrt hbig hB hB2 hdist hdist2)
    ⟨hn, hnt, hlt, hK, hX, hXB, hmean, hsum⟩ h0 hm hc

/-! ### IEEE doubles -/

section Double

variable {fin : R → Prop} {val : R → ℝ} {sqrt abs' : R → R}

/-- What the theorems below assume: fewer than `2^32` rows of at most `2^32` columns, rows and start no larger
than `2^400`, and `big` is the largest double. -/
structure DoubleInput (fin : R → Prop) (val : R → ℝ) (big : R) (data : Nat → Row R n) (N nt : Nat)
    (cents0 : Fin k → Row R n) : Prop where
  k_pos : 0 < k
  n_pos : 0 < N
  nt_pos : 0 < nt
  n_lt : N < 4294967296
  col_le : n ≤ 4294967296
  big : fin big ∧ val big = maxDouble
  rows : ∀ r, r < N → InBox fin val (2 ^ (400 : Int)) (data r)
  start : ∀ c, InBox fin val (2 ^ (400 : Int)) (cents0 c)

theorem len_le {N nt : Nat} (hn : 0 < N) (hnt : 0 < nt) (hlt : N < 4294967296) :
    N / effThreads nt N + N % effThreads nt N + effThreads nt N + 1 ≤ 2 ^ 34 := by
  have h1 : 0 < effThreads nt N := effThreads_pos hnt hn
  have h2 : effThreads nt N ≤ N := effThreads_le
  have h3 : N / effThreads nt N ≤ N := Nat.div_le_self _ _
  have h4 : N % effThreads nt N < effThreads nt N := Nat.mod_lt _ h1
  omega

theorem pow2 {m : Nat} (hm : m ≤ 2 ^ 34) : ((1 : ℝ) + 2 ^ (-53 : Int)) ^ m ≤ 2 ^ (1 : Int) := by
  have := (pow_rounds (m := m) (hm.trans (by norm_num))).2
  simpa using this

theorem nat_p {m : Nat} (hm : m ≤ 4294967296) : (m : ℝ) ≤ 2 ^ (32 : Int) := by
  have : (m : ℝ) ≤ ((4294967296 : Nat) : ℝ) := by exact_mod_cast hm
  refine this.trans (le_of_eq ?_)
  norm_num

/-- The sum of the squares cannot overflow. -/
theorem sq_bound {m : Nat} (hm : m ≤ 4294967296) :
    ((1 : ℝ) + 2 ^ (-53 : Int)) ^ m * (m * ((1 + 2 ^ (-53 : Int)) ^ 3 * (2 * 2 ^ (402 : Int)) ^ 2 + 2 ^ (-1075 : Int))) ≤
      2 ^ (841 : Int) := by
  have e : ((2 : ℝ) * 2 ^ (402 : Int)) ^ 2 = 2 ^ (806 : Int) := by
    rw [mul_pow, ← zpow_natCast, ← zpow_natCast, ← zpow_mul, p_mul]; norm_num
  rw [e]
  have h1 : ((1 : ℝ) + 2 ^ (-53 : Int)) ^ 3 * 2 ^ (806 : Int) ≤ 2 ^ (807 : Int) := by
    refine (mul_le_mul_of_nonneg_right (pow2 (by norm_num)) (p_pos _).le).trans (le_of_eq ?_)
    rw [p_mul]; norm_num
  have h2 : ((1 : ℝ) + 2 ^ (-53 : Int)) ^ 3 * 2 ^ (806 : Int) + 2 ^ (-1075 : Int) ≤ 2 ^ (808 : Int) := by
    have h3 : (2 : ℝ) ^ (-1075 : Int) ≤ 2 ^ (807 : Int) := p_le (by norm_num)
    have h4 : (2 : ℝ) ^ (808 : Int) = 2 ^ (807 : Int) + 2 ^ (807 : Int) := by
      rw [show (808 : Int) = 1 + 807 by norm_num, zpow_add₀ (by norm_num), zpow_one]; ring
    rw [h4]
    exact add_le_add h1 h3
  have h0 : (0 : ℝ) ≤ (1 + 2 ^ (-53 : Int)) ^ 3 * 2 ^ (806 : Int) + 2 ^ (-1075 : Int) := by positivity
  have h5 := mul_le_mul (nat_p hm) h2 h0 (p_pos _).le
  have h6 := mul_le_mul (pow2 (m := m) (hm.trans (by norm_num))) h5 (by positivity) (p_pos _).le
  refine h6.trans (le_of_eq ?_)
  rw [p_mul, p_mul]; norm_num

variable {big : R} {data : Nat → Row R n} {N nt : Nat} {s0 : KState R k n}

omit [Zero R] [Add R] [Sub R] [Mul R] [Div R] [IntCast R] [LT R] [DecidableLT R] [NatCast R] [LE R] [DecidableLE R] in
theorem DoubleInput.sizes (h : DoubleInput fin val big data N nt s0.cltrs.means) :
    Sizes fin val (2 ^ (-53 : Int)) (2 ^ (-1075 : Int)) maxDouble (2 ^ (400 : Int)) (2 ^ (402 : Int)) (2 ^ 53) N nt
      data where
  n_pos := h.n_pos
  nt_pos := h.nt_pos
  n_lt := h.n_lt
  n_le := h.n_lt.le.trans (by norm_num)
  rows := h.rows
  x_le := p_le (by norm_num)
  mean_le := by
    have h1 := mul_le_mul_of_nonneg_right (pow2 (len_le h.n_pos h.nt_pos h.n_lt)) (p_pos 400).le
    have h2 : (2 : ℝ) ^ (-1075 : Int) ≤ 2 ^ (401 : Int) := p_le (by norm_num)
    refine (add_le_add h1 h2).trans (le_of_eq ?_)
    rw [p_mul, show (1 : Int) + 400 = 401 by norm_num, show (402 : Int) = 1 + 401 by norm_num,
      zpow_add₀ (by norm_num) 1 401, zpow_one]
    ring
  sum_le := by
    have h1 := mul_le_mul_of_nonneg_right (nat_p h.n_lt.le) (p_pos 400).le
    have hl := len_le h.n_pos h.nt_pos h.n_lt
    have h2 := mul_le_mul (pow2 (m := N / effThreads nt N + N % effThreads nt N + effThreads nt N) (by omega)) h1
      (by positivity) (p_pos _).le
    refine h2.trans (le_trans (le_of_eq ?_) ((p_le (show (433 : Int) ≤ 1023 by norm_num)).trans p_le_max))
    rw [p_mul, p_mul]; norm_num

theorem big_box : (2 : ℝ) * 2 ^ (402 : Int) ≤ maxDouble ∧
    (1 + 2 ^ (-53 : Int)) ^ 2 * (2 * (2 : ℝ) ^ (402 : Int)) ^ 2 ≤ maxDouble := by
  constructor
  · refine le_trans (le_of_eq ?_) ((p_le (show (403 : Int) ≤ 1023 by norm_num)).trans p_le_max)
    rw [show (403 : Int) = 1 + 402 by norm_num, zpow_add₀ (by norm_num), zpow_one]
  · have e : ((2 : ℝ) * 2 ^ (402 : Int)) ^ 2 = 2 ^ (806 : Int) := by
      rw [mul_pow, ← zpow_natCast, ← zpow_natCast, ← zpow_mul, p_mul]; norm_num
    rw [e]
    refine (mul_le_mul_of_nonneg_right (pow2 (m := 2) (by norm_num)) (p_pos _).le).trans ?_
    rw [p_mul]
    exact (p_le (by norm_num)).trans p_le_max

/-- The error that underflow of the squares can cause. -/
theorem under_bound {m : Nat} (hm : m ≤ 4294967296) :
    ((1 : ℝ) + 2 ^ (-53 : Int)) ^ m * (m * 2 ^ (-1075 : Int)) ≤ 2 ^ (-1042 : Int) := by
  have h1 := mul_le_mul_of_nonneg_right (nat_p hm) (p_pos (-1075)).le
  have h2 := mul_le_mul (pow2 (m := m) (hm.trans (by norm_num))) h1 (by positivity) (p_pos _).le
  refine h2.trans (le_of_eq ?_)
  rw [p_mul, p_mul]; norm_num

omit [DecidableLT R] [DecidableLE R] in
/-- **C97 for doubles, squared Euclidean distance.** With IEEE doubles, fewer than `2^32` rows, and rows and
start no larger than `2^400`, a run never fails, and it is Lloyd's algorithm up to a relative error of
`(n+3) 2^-52` in the distances and of `(L+T+1) 2^-52` in the centroids. -/
theorem C97_double_sqeucl [DecidableLT R] [DecidableLE R] (hI : IeeeDouble fin val sqrt abs') (tol : R) (maxIters : Nat)
    (sched : Nat → List Nat) (hin : DoubleInput fin val big data N nt s0.cltrs.means) (hm : 0 < maxIters)
    (hc : ∀ i, Complete (effThreads nt N) (threadRows N nt) (sched i))
    (T L : Nat) (hT : T = effThreads nt N) (hL : L = N / T + N % T) :
    ∃ res, Kmeans.run Dist.sqeuclAny big data N nt tol maxIters sched s0 = .ok res ∧
      NearLloydResult fin val sqDistance ((n + 3 : Nat) * 2 ^ (-52 : Int)) (2 ^ (-1042 : Int))
        ((L + T + 1 : Nat) * 2 ^ (-52 : Int)) (2 ^ (-1075 : Int)) N data
        s0.cltrs.means tol maxIters res.iters res.state.assign res.state.counts res.state.cltrs.means := by
  subst hT hL
  have hb := sq_bound hin.col_le
  have hbig : (2 : ℝ) ^ (841 : Int) < val big := by
    rw [hin.big.2]
    exact (zpow_lt_zpow_right₀ (by norm_num) (by norm_num)).trans_le p_le_max
  obtain ⟨res, h1, h2⟩ := run_near hI.rounds hin.k_pos
    (distRounds_sq (n := n) hI.rounds hin.big.1 big_box.1 big_box.2 (by rw [hin.big.2]) (hb.trans_lt hbig))
    hin.sizes (fun c => InBox.mono (hin.start c) (p_le (by norm_num))) hm hc (tol := tol)
  have hcol := hin.col_le
  refine ⟨res, h1, h2.mono (fun x y => Finset.sum_nonneg fun _ _ => sq_nonneg _)
    (pow_rounds (m := n + 3) (by omega)).1 (under_bound hin.col_le) (pow_rounds (m := _) ?_).1⟩
  exact (len_le hin.n_pos hin.nt_pos hin.n_lt).trans (by norm_num)

omit [DecidableLT R] [DecidableLE R] in
/-- **C97 for doubles, Euclidean distance.** -/
theorem C97_double_eucl [DecidableLT R] [DecidableLE R] (hI : IeeeDouble fin val sqrt abs') (tol : R) (maxIters : Nat)
    (sched : Nat → List Nat) (hin : DoubleInput fin val big data N nt s0.cltrs.means) (hm : 0 < maxIters)
    (hc : ∀ i, Complete (effThreads nt N) (threadRows N nt) (sched i))
    (T L : Nat) (hT : T = effThreads nt N) (hL : L = N / T + N % T) :
    ∃ res, Kmeans.run (Dist.euclAny sqrt) big data N nt tol maxIters sched s0 = .ok res ∧
      NearLloydResult fin val (fun x y => √(sqDistance x y)) ((n + 4 : Nat) * 2 ^ (-52 : Int)) (2 ^ (-520 : Int))
        ((L + T + 1 : Nat) * 2 ^ (-52 : Int)) (2 ^ (-1075 : Int)) N data
        s0.cltrs.means tol maxIters res.iters res.state.assign res.state.counts res.state.cltrs.means := by
  subst hT hL
  have hb := sq_bound hin.col_le
  have hbM : (2 : ℝ) ^ (841 : Int) ≤ maxDouble := (p_le (by norm_num)).trans p_le_max
  have h1u : (1 : ℝ) + 2 ^ (-53 : Int) ≤ 2 ^ (1 : Int) := by
    have := pow2 (m := 1) (by norm_num)
    rwa [pow_one] at this
  have hsq : ∀ {y : ℝ} (e : Int), y ≤ 2 ^ (2 * e) → √y ≤ 2 ^ e := by
    intro y e hy
    apply Real.sqrt_le_iff.2
    refine ⟨(p_pos e).le, hy.trans (le_of_eq ?_)⟩
    rw [← zpow_natCast, ← zpow_mul, mul_comm]; norm_num
  have hbig : (1 + 2 ^ (-53 : Int)) * √(((1 : ℝ) + 2 ^ (-53 : Int)) ^ n *
      (n * ((1 + 2 ^ (-53 : Int)) ^ 3 * (2 * 2 ^ (402 : Int)) ^ 2 + 2 ^ (-1075 : Int)))) < val big := by
    have h2 := hsq 421 (hb.trans (p_le (by norm_num)))
    have h3 := mul_le_mul h1u h2 (Real.sqrt_nonneg _) (p_pos _).le
    rw [p_mul] at h3
    refine h3.trans_lt ?_
    rw [hin.big.2]
    exact (zpow_lt_zpow_right₀ (by norm_num) (by norm_num)).trans_le p_le_max
  obtain ⟨res, h1, h2⟩ := run_near hI.rounds hin.k_pos
    (distRounds_eucl (n := n) hI.rounds hI.sqrt_rounds hin.big.1 big_box.1 big_box.2 (hb.trans hbM) hbig)
    hin.sizes (fun c => InBox.mono (hin.start c) (p_le (by norm_num))) hm hc (tol := tol)
  have hcol := hin.col_le
  refine ⟨res, h1, h2.mono (fun x y => Real.sqrt_nonneg _)
    (pow_rounds (m := n + 4) (by omega)).1 ?_ (pow_rounds (m := _) ?_).1⟩
  · have h3 := mul_le_mul h1u (hsq (-521) (under_bound hin.col_le)) (Real.sqrt_nonneg _) (p_pos _).le
    rw [p_mul] at h3
    exact h3
  · exact (len_le hin.n_pos hin.nt_pos hin.n_lt).trans (by norm_num)

omit [DecidableLT R] [DecidableLE R] in
/-- **C97 for doubles, taxicab distance.** -/
theorem C97_double_taxi [DecidableLT R] [DecidableLE R] (hI : IeeeDouble fin val sqrt abs') (tol : R) (maxIters : Nat)
    (sched : Nat → List Nat) (hin : DoubleInput fin val big data N nt s0.cltrs.means) (hm : 0 < maxIters)
    (hc : ∀ i, Complete (effThreads nt N) (threadRows N nt) (sched i))
    (T L : Nat) (hT : T = effThreads nt N) (hL : L = N / T + N % T) :
    ∃ res, Kmeans.run (Dist.taxiAny abs') big data N nt tol maxIters sched s0 = .ok res ∧
      NearLloydResult fin val taxiDistance ((n + 1 : Nat) * 2 ^ (-52 : Int)) 0
        ((L + T + 1 : Nat) * 2 ^ (-52 : Int)) (2 ^ (-1075 : Int)) N data
        s0.cltrs.means tol maxIters res.iters res.state.assign res.state.counts res.state.cltrs.means := by
  subst hT hL
  have h1u : (1 : ℝ) + 2 ^ (-53 : Int) ≤ 2 ^ (1 : Int) := by
    have := pow2 (m := 1) (by norm_num)
    rwa [pow_one] at this
  have hbig : ((1 : ℝ) + 2 ^ (-53 : Int)) ^ n * (n * ((1 + 2 ^ (-53 : Int)) * (2 * 2 ^ (402 : Int)))) < val big := by
    have e : (2 : ℝ) * 2 ^ (402 : Int) = 2 ^ (403 : Int) := by
      rw [show (403 : Int) = 1 + 402 by norm_num, zpow_add₀ (by norm_num), zpow_one]
    rw [e]
    have h1 := mul_le_mul_of_nonneg_right h1u (p_pos 403).le
    have h2 := mul_le_mul (nat_p hin.col_le) h1 (by positivity) (p_pos _).le
    have h3 := mul_le_mul (pow2 (m := n) (hin.col_le.trans (by norm_num))) h2 (by positivity) (p_pos _).le
    refine h3.trans_lt ?_
    rw [p_mul, p_mul, p_mul, hin.big.2]
    exact (zpow_lt_zpow_right₀ (by norm_num) (by norm_num)).trans_le p_le_max
  obtain ⟨res, h1, h2⟩ := run_near hI.rounds hin.k_pos
    (distRounds_taxi (n := n) hI.rounds hI.abs hin.big.1 big_box.1 (by rw [hin.big.2]) hbig)
    hin.sizes (fun c => InBox.mono (hin.start c) (p_le (by norm_num))) hm hc (tol := tol)
  have hcol := hin.col_le
  refine ⟨res, h1, h2.mono (fun x y => Finset.sum_nonneg fun _ _ => abs_nonneg _)
    (pow_rounds (m := n + 1) (by omega)).1 le_rfl (pow_rounds (m := _) ?_).1⟩
  exact (len_le hin.n_pos hin.nt_pos hin.n_lt).trans (by norm_num)

end Double

/-! ### The hypotheses can be met -/

/-- Finitely many doubles. -/
theorem doubles_finite : {q : ℝ | IsDouble q}.Finite := by
  refine Set.Finite.subset (((Set.finite_Icc (-(2 ^ 53) : Int) (2 ^ 53)).prod
    (Set.finite_Icc (-1074 : Int) 971)).image fun p : Int × Int => (p.1 : ℝ) * (2 : ℝ) ^ p.2) ?_
  rintro q ⟨m, e, h1, h2, h3, rfl⟩
  have := abs_lt.1 h1
  exact ⟨(m, e), ⟨⟨this.1.le, this.2.le⟩, ⟨h2, h3⟩⟩, rfl⟩

theorem nearest_exists (x : ℝ) : ∃ q, NearestDouble x q := by
  obtain ⟨q, hq, h⟩ := Set.exists_min_image {q : ℝ | IsDouble q} (fun q => |x - q|) doubles_finite ⟨0, isDouble_zero⟩
  exact ⟨q, hq, h⟩

/-- An implementation of doubles. -/
structure Dbl where
  v : ℝ

namespace Dbl

/-- Round to nearest. -/
noncomputable def rnd (x : ℝ) : Dbl := ⟨(nearest_exists x).choose⟩

noncomputable instance : Zero Dbl := ⟨⟨0⟩⟩
noncomputable instance : Add Dbl := ⟨fun x y => rnd (x.v + y.v)⟩
noncomputable instance : Sub Dbl := ⟨fun x y => rnd (x.v - y.v)⟩
noncomputable instance : Mul Dbl := ⟨fun x y => rnd (x.v * y.v)⟩
noncomputable instance : Div Dbl := ⟨fun x y => rnd (x.v / y.v)⟩
noncomputable instance : IntCast Dbl := ⟨fun m => rnd m⟩
noncomputable instance : NatCast Dbl := ⟨fun m => rnd m⟩
instance : LT Dbl := ⟨fun x y => x.v < y.v⟩
instance : LE Dbl := ⟨fun x y => x.v ≤ y.v⟩
noncomputable instance : DecidableLT Dbl := fun _ _ => Classical.propDecidable _
noncomputable instance : DecidableLE Dbl := fun _ _ => Classical.propDecidable _

/-- Finite doubles. -/
def Fin' (x : Dbl) : Prop := IsDouble x.v

theorem rnd_ok (x : ℝ) : Fin' (rnd x) ∧ NearestDouble x (rnd x).v :=
  ⟨(nearest_exists x).choose_spec.1, (nearest_exists x).choose_spec⟩

/-- Doubles as the standard wants them exist. -/
theorem ieee : IeeeDouble Fin' Dbl.v (fun x => rnd (√x.v)) (fun x => ⟨|x.v|⟩) where
  double := fun _ h => h
  zero := ⟨isDouble_zero, rfl⟩
  add := fun _ _ _ _ _ => rnd_ok _
  sub := fun _ _ _ _ _ => rnd_ok _
  mul := fun _ _ _ _ _ => rnd_ok _
  div := fun _ _ _ _ _ _ => rnd_ok _
  int := fun _ _ => rnd_ok _
  nat := fun _ _ => rnd_ok _
  lt := fun _ _ _ _ => Iff.rfl
  le := fun _ _ _ _ => Iff.rfl
  sqrt := fun _ _ _ => rnd_ok _
  abs := by
    intro x hx
    refine ⟨?_, rfl⟩
    change IsDouble |x.v|
    rcases abs_choice x.v with h | h
    · rw [h]; exact hx
    · rw [h]; exact isDouble_neg hx

end Dbl

/-- Rows of the example: `r`, for `r < 4`. -/
def dblData (r : Nat) : Row Dbl 1 := fun _ => ⟨(r : ℝ)⟩
/-- Start of the example: 0 and 1. -/
def dblInit : KState Dbl 2 1 :=
  { cltrs := { means := fun c _ => ⟨((c : Nat) : ℝ)⟩, num := fun _ => 0, complete := fun _ => false }
    assign := fun _ => none, counts := fun _ => 0, changed := 0 }

theorem dbl_input : DoubleInput Dbl.Fin' Dbl.v ⟨maxDouble⟩ dblData 4 2 dblInit.cltrs.means := by
  have hsmall : ∀ r : Nat, r ≤ 4 → IsDouble (r : ℝ) ∧ |(r : ℝ)| ≤ 2 ^ (400 : Int) := by
    intro r hr
    refine ⟨nat_isDouble (hr.trans (by norm_num)), ?_⟩
    rw [abs_of_nonneg (Nat.cast_nonneg r)]
    have h1 : (r : ℝ) ≤ ((4 : Nat) : ℝ) := by exact_mod_cast hr
    have h2 : ((4 : Nat) : ℝ) = 2 ^ (2 : Int) := by norm_num
    rw [h2] at h1
    exact h1.trans (p_le (by norm_num))
  refine ⟨by norm_num, by norm_num, by norm_num, by norm_num, by norm_num, ⟨?_, rfl⟩, ?_, ?_⟩
  · exact ⟨2 ^ 53 - 1, 971, by norm_num, by norm_num, le_rfl, by unfold maxDouble; norm_num⟩
  · intro r hr j; exact hsmall r (by omega)
  · intro c j; exact hsmall c (by omega)

theorem demo_complete (i : Nat) : Complete (effThreads 2 4) (threadRows 4 2) (Kmeans.demoSched i) := by
  intro t ht
  have : t = 0 ∨ t = 1 := by
    have : effThreads 2 4 = 2 := by decide
    omega
  rcases this with rfl | rfl <;> (unfold Kmeans.demoSched; decide)

/-- A run on doubles with two threads and at most five iterations, by the theorem. -/
example (tol : Dbl) : ∃ res,
    Kmeans.run (Dist.euclAny fun x => Dbl.rnd (√x.v)) ⟨maxDouble⟩ dblData 4 2 tol 5 Kmeans.demoSched dblInit = .ok res ∧
      NearLloydResult Dbl.Fin' Dbl.v (fun x y => √(sqDistance x y)) ((5 : Nat) * 2 ^ (-52 : Int)) (2 ^ (-520 : Int))
        ((5 : Nat) * 2 ^ (-52 : Int)) (2 ^ (-1075 : Int)) 4 dblData
        dblInit.cltrs.means tol 5 res.iters res.state.assign res.state.counts res.state.cltrs.means :=
  C97_double_eucl Dbl.ieee tol 5 Kmeans.demoSched dbl_input (by norm_num) demo_complete 2 2 (by decide) (by decide)

open Knor.Repro (Fl)
open Knor.Rounding (flFin flVal flFin_rnd rnd_err rnd_half fl_rounds)

/-- Absolute value of the three-bit arithmetic. -/
def flAbs (x : Fl) : Fl := ⟨x.val.map fun q => if q < 0 then -q else q⟩

/-- The three-bit arithmetic of Props/Repro.lean satisfies the assumptions, too. -/
theorem fl_all (M : ℚ) : RoundsAll flFin flVal (1/8 : ℚ) (1/4) M 8 where
  toRounds := fl_rounds M
  u_le := by norm_num
  sub := by
    rintro ⟨x⟩ ⟨y⟩ ⟨z, hz⟩ ⟨w, hw⟩ _
    simp only at hz hw
    subst hz hw
    have e : (⟨some (z / 2 : ℚ)⟩ : Fl) - ⟨some (w / 2 : ℚ)⟩ = ⟨some (Fl.rnd (z / 2 - w / 2))⟩ := rfl
    rw [e]
    refine ⟨flFin_rnd _, ?_⟩
    change |Fl.rnd (z / 2 - w / 2) - (z / 2 - w / 2)| ≤ 1/8 * |(z / 2 - w / 2 : ℚ)|
    have es : (z / 2 - w / 2 : ℚ) = ((z - w : Int) : ℚ) / 2 := by push_cast; ring
    rcases rnd_err (z / 2 - w / 2) with h | ⟨h, _⟩
    · exact h
    · rw [es] at h ⊢
      rw [rnd_half _ h, sub_self, abs_zero]
      positivity
  mul := by
    rintro ⟨x⟩ ⟨y⟩ ⟨z, hz⟩ ⟨w, hw⟩ _
    simp only at hz hw
    subst hz hw
    have e : (⟨some (z / 2 : ℚ)⟩ : Fl) * ⟨some (w / 2 : ℚ)⟩ = ⟨some (Fl.rnd (z / 2 * (w / 2)))⟩ := rfl
    rw [e]
    refine ⟨flFin_rnd _, ?_⟩
    change |Fl.rnd (z / 2 * (w / 2)) - (z / 2 * (w / 2))| ≤ 1/8 * |(z / 2 * (w / 2) : ℚ)| + 1/4
    rcases rnd_err (z / 2 * (w / 2)) with h | ⟨_, h⟩
    · linarith
    · have := abs_nonneg (z / 2 * (w / 2) : ℚ)
      linarith
  sq := by
    rintro ⟨x⟩ ⟨z, hz⟩ _
    simp only at hz
    subst hz
    have e : (⟨some (z / 2 : ℚ)⟩ : Fl) * ⟨some (z / 2 : ℚ)⟩ = ⟨some (Fl.rnd (z / 2 * (z / 2)))⟩ := rfl
    rw [e]
    change 0 ≤ Fl.rnd (z / 2 * (z / 2))
    have hq : (0 : ℚ) ≤ z / 2 * (z / 2) := mul_self_nonneg _
    unfold Fl.rnd
    dsimp only
    have key : ∀ g : ℚ, 0 < g → 0 ≤ g * ((Rat.floor (z / 2 * (z / 2) / g + 1 / 2) : Int) : ℚ) := by
      intro g hg
      refine mul_nonneg hg.le ?_
      have : (0 : Int) ≤ Rat.floor (z / 2 * (z / 2) / g + 1 / 2) := by
        apply Rat.le_floor_iff.2
        have := div_nonneg hq hg.le
        push_cast
        linarith
      exact_mod_cast this
    split
    · exact key _ (by norm_num)
    · split
      · exact key _ (by norm_num)
      · exact key _ (by norm_num)
  lt := by
    rintro ⟨x⟩ ⟨y⟩ ⟨z, hz⟩ ⟨w, hw⟩
    simp only at hz hw
    subst hz hw
    change Fl.cmp _ _ _ = true ↔ _
    unfold Fl.cmp flVal
    simp

/-- Start of the example: 8 and 0. -/
def flInit : KState Fl 2 1 :=
  { cltrs := { means := fun c _ => if c = 0 then .of 8 else .of 0, num := fun _ => 0, complete := fun _ => false }
    assign := fun _ => none, counts := fun _ => 0, changed := 0 }

/-- A run in three-bit arithmetic (rows 8, 0, 1, 1), by the theorem. -/
example : ∃ res, Kmeans.run Dist.sqeuclAny (.of 2000) Rounding.flData 4 2 (.of 0) 5 Kmeans.demoSched flInit = .ok res ∧
      NearLloydResult flFin flVal sqDistance ((1 + 1/8) ^ (1 + 3) - 1) ((1 + 1/8) ^ 1 * ((1 : Nat) * (1/4)))
        ((1 + 1/8) ^ (2 + 2 + 1) - 1) (1/4) 4 Rounding.flData
        flInit.cltrs.means (.of 0) 5 res.iters res.state.assign res.state.counts res.state.cltrs.means :=
  C97_sqeucl (X := 8) (B := 15) (fl_all 4000) (by norm_num) (.of 2000) Rounding.flData 4 2 (.of 0) 5
    Kmeans.demoSched flInit (by norm_num) (by norm_num) (by norm_num) (by norm_num) (by norm_num)
    demo_complete 2 2 (by decide) (by decide)
    (by
      intro r hr j
      rw [Subsingleton.elim j 0]
      have : r = 0 ∨ r = 1 ∨ r = 2 ∨ r = 3 := by omega
      rcases this with rfl | rfl | rfl | rfl <;> exact ⟨flFin_rnd _, by decide +kernel⟩)
    (by norm_num)
    (by
      intro c j
      unfold flInit
      dsimp only
      split <;> exact ⟨flFin_rnd _, by decide +kernel⟩)
    (by norm_num) (by norm_num) (by norm_num) (by norm_num) (flFin_rnd _) (by decide +kernel) (by
      have : flVal (.of 2000) = 2000 := by decide +kernel
      rw [this]; norm_num)

/-- What it returns: row 0 is alone, the others form a cluster of mean 2/3, computed as 1/2; two iterations. -/
example : (Kmeans.run Dist.sqeuclAny (.of 2000) Rounding.flData 4 2 (.of 0) 5 Kmeans.demoSched flInit).map (fun res =>
      ((List.range 4).map res.state.assign, flVal (res.state.cltrs.means 0 0), flVal (res.state.cltrs.means 1 0),
        res.iters)) =
    .ok ([some 0, some 1, some 1, some 1], 8, 1/2, 2) := by decide +kernel

/-- With the taxicab distance the hypotheses are met, too. -/
example : ∃ res, Kmeans.run (Dist.taxiAny flAbs) (.of 2000) Rounding.flData 4 2 (.of 0) 5 Kmeans.demoSched flInit = .ok res ∧
      NearLloydResult flFin flVal taxiDistance ((1 + 1/8) ^ (1 + 1) - 1) 0
        ((1 + 1/8) ^ (2 + 2 + 1) - 1) (1/4) 4 Rounding.flData
        flInit.cltrs.means (.of 0) 5 res.iters res.state.assign res.state.counts res.state.cltrs.means :=
  C97_taxi (X := 8) (B := 15) (fl_all 4000) (by norm_num) flAbs
    (by
      rintro ⟨x⟩ ⟨z, hz⟩
      simp only at hz
      subst hz
      by_cases h : (z / 2 : ℚ) < 0
      · refine ⟨⟨-z, ?_⟩, ?_⟩
        · change some (if (z / 2 : ℚ) < 0 then _ else _) = _
          rw [if_pos h]; push_cast; rw [neg_div]
        · change (if (z / 2 : ℚ) < 0 then _ else _) = _
          rw [if_pos h]; exact (abs_of_neg h).symm
      · refine ⟨⟨z, ?_⟩, ?_⟩
        · change some (if (z / 2 : ℚ) < 0 then _ else _) = _
          rw [if_neg h]
        · change (if (z / 2 : ℚ) < 0 then _ else _) = _
          rw [if_neg h]; exact (abs_of_nonneg (not_lt.1 h)).symm)
    (.of 2000) Rounding.flData 4 2 (.of 0) 5
    Kmeans.demoSched flInit (by norm_num) (by norm_num) (by norm_num) (by norm_num) (by norm_num)
    demo_complete 2 2 (by decide) (by decide)
    (by
      intro r hr j
      rw [Subsingleton.elim j 0]
      have : r = 0 ∨ r = 1 ∨ r = 2 ∨ r = 3 := by omega
      rcases this with rfl | rfl | rfl | rfl <;> exact ⟨flFin_rnd _, by decide +kernel⟩)
    (by norm_num)
    (by
      intro c j
      unfold flInit
      dsimp only
      split <;> exact ⟨flFin_rnd _, by decide +kernel⟩)
    (by norm_num) (by norm_num) (by norm_num) (flFin_rnd _) (by decide +kernel) (by
      have : flVal (.of 2000) = 2000 := by decide +kernel
      rw [this]; norm_num)

end Knor.NearLloyd
