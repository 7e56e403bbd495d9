import Verif.Lemmas.DistrNear
import Verif.Props.Distr
import Verif.Props.Separated
import Verif.Spec.NearJob

/-!
# Property C101: distributed k-means in floating-point arithmetic

C26 says that a distributed run is Lloyd's algorithm if arithmetic is exact.  With rounding there are two new
questions: every rank rounds its own sums, and the MPI library may add them in any order, in every reduction
another one.  The theorems say, for every order: the job is Lloyd's algorithm on all rows up to rounding (the
errors are those of C97 with `np` more roundings in every centroid), all ranks end with the same centroids, and on
data whose exact iterations are separated the job returns exactly the clusters of Lloyd's algorithm.  With exact
sums the order does not matter.
-/

namespace Knor.Distr

open Knor Knor.Par Knor.Partition Knor.Spec Knor.NearLloyd

variable {R F D : Type _} {k n : Nat}

/-- Every reduction adds the numbers of all ranks once. -/
def OrderOk (np : Nat) (tree : Nat → Fin k → Fin n → SumTree) : Prop :=
  ∀ i c j, (tree i c j).ranks.Perm (List.range np)

/-- **C101 (exact sums).** The order of the reductions does not matter. -/
theorem C101_order_irrelevant [Field R] [LE R] [DecidableLE R] [LT D] [DecidableLT D] (dist : Row R n → Row R n → D)
    (big : D) (data : Nat → Row R n) (g np nt : Nat) (tol : R) (maxIters : Nat) (sched : Nat → Nat → List Nat)
    (procs : Nat → Kmeans.KState R k n) (tree : Nat → Fin k → Fin n → SumTree) (ht : OrderOk np tree) :
    runBy (fun i c j x => (tree i c j).eval x) dist big data g np nt tol maxIters sched procs =
      run dist big data g np nt tol maxIters sched procs := by
  have e : (fun (i : Nat) (c : Fin k) (j : Fin n) (x : Nat → R) => (tree i c j).eval x) =
      fun _ _ _ => allreduce np := by
    funext i c j x
    exact eval_allreduce (ht i c j) x
  rw [e]
  rfl

/-- The same for the pruned version. -/
theorem C101_order_irrelevant_pruned [Field R] [LE R] [DecidableLE R] [Field D] [LinearOrder D]
    (dist eucl : Row R n → Row R n → D)
    (big : D) (data : Nat → Row R n) (g np nt : Nat) (tol : R) (maxIters : Nat) (sched : Nat → Nat → List Nat)
    (procs : Nat → DProc R D k n) (tree : Nat → Fin k → Fin n → SumTree) (ht : OrderOk np tree) :
    runPrunedBy (fun i c j x => (tree i c j).eval x) dist eucl big data g np nt tol maxIters sched procs =
      runPruned dist eucl big data g np nt tol maxIters sched procs := by
  have e : (fun (i : Nat) (c : Fin k) (j : Fin n) (x : Nat → R) => (tree i c j).eval x) =
      fun _ _ _ => allreduce np := by
    funext i c j x
    exact eval_allreduce (ht i c j) x
  rw [e]
  rfl

section General

variable [Zero R] [Add R] [Sub R] [Mul R] [Div R] [IntCast R] [LT R] [DecidableLT R]
  [NatCast R] [LE R] [DecidableLE R] [Field F] [LinearOrder F]
  [IsStrictOrderedRing F] {fin : R → Prop} {val : R → F} {u η M X B : F} {K : Nat}

/-- **C101 (in general).** For a distance with known error (`DistRounds`, met by the squared Euclidean, the
Euclidean and the taxicab distance, Lemmas/NearLloyd.lean) and numbers that are small enough (`JobSizes`): for
every order of every reduction and every interleaving of the threads of every rank, the job returns and is
Lloyd's algorithm up to rounding. -/
theorem C101_near (hA : RoundsAll fin val u η M K) (hk : 0 < k) {dist : Row R n → Row R n → R} {big : R}
    {dF : (Fin n → F) → (Fin n → F) → F} {γ ζ : F} (hD : DistRounds fin val B dist big dF γ ζ)
    (data : Nat → Row R n) (g np nt W : Nat) (tol : R) (maxIters : Nat) (sched : Nat → Nat → List Nat)
    (hS : JobSizes fin val u η M X B K g np nt W data) (tree : Nat → Fin k → Fin n → SumTree) (ht : OrderOk np tree)
    (cents0 : Fin k → Row R n) (h0 : ∀ c, InBox fin val B (cents0 c)) (procs : Nat → Kmeans.KState R k n)
    (hp0 : ∀ p, p < np → (procs p).cltrs.means = cents0) (hm : 0 < maxIters) (hc : SchedOk g np nt sched) :
    ∃ res v, runBy (fun i c j x => (tree i c j).eval x) dist big data g np nt tol maxIters sched procs = .ok res ∧
      gather g np (fun p => (res.procs p).assign) = .ok v ∧
      NearJobResult fin val dF γ ζ ((1 + u) ^ (W + np) - 1) η g np data cents0 tol maxIters (∀ i, tree i = tree 0)
        res.iters v (fun p => (res.procs p).counts) (fun p => (res.procs p).cltrs.means) := by
  have hconv : ∀ ch : Nat, Kmeans.convTest g tol ch = true ↔ (ch = 0 ∨ (ch : R) / (g : R) ≤ tol) := by
    intro ch; unfold Kmeans.convTest; simp
  obtain ⟨res, e, h1, h2, h3, h4, h5⟩ := runBy_trace hA hk hD hS ht h0 hp0 tol hm hc
  obtain ⟨v, ev, hv⟩ := gather_eq (g := g) hS.np_pos (fun p => (res.procs p).assign)
  set tr := trJob tree dist big data g np nt cents0 with htr
  have hvr : ∀ r, r < g → v r = (tr res.iters).assign r := by
    intro r hr
    obtain ⟨p, q, hp, hq, rfl⟩ := exists_off hS.np_pos hr
    rw [hv p q hp hq]
    exact (h5 p hp).2.1 q hq
  refine ⟨res, v, e, ev, res.iters, fun i => Kmeans.snapVal val (tr i), h1, h2,
    ⟨rfl, fun _ => rfl, fun i _ => trJob_step hA hk hD hS ht h0 i⟩, ?_, ?_, rfl, hvr, ?_, ?_, ?_⟩
  · intro i hi hi' hs
    exact h3 i hi hi' ((hconv _).2 hs)
  · rcases h4 with h | h
    · exact Or.inl ((hconv _).1 h)
    · exact Or.inr h
  · intro p hp
    refine ⟨fun c => ?_, by dsimp only; rw [(h5 p hp).1, (h5 0 hS.np_pos).1]⟩
    dsimp only
    rw [(h5 p hp).2.2 c, Kmeans.count_congr hvr]
  · intro c j
    dsimp only
    rw [(h5 0 hS.np_pos).1]
    exact ⟨(trJob_box hA.toRounds hS ht h0 _ c j).1, rfl⟩
  · intro hfix hch r hr
    have e := trJob_fixed hA hk hD hS ht h0 hfix h1 hch
    obtain ⟨i, hi⟩ : ∃ i, res.iters = i + 1 := ⟨res.iters - 1, by omega⟩
    obtain ⟨c, hc1, hc2⟩ := (trJob_step hA hk hD hS ht h0 i).assigned r hr
    rw [← hi] at hc1
    refine ⟨c, by rw [hvr r hr]; exact hc1, ?_⟩
    rw [hi, Nat.add_sub_cancel] at e
    dsimp only
    rw [(h5 0 hS.np_pos).1, hi, ← e]
    exact hc2

omit [Zero R] [Add R] [Sub R] [Mul R] [IntCast R] [LT R] [DecidableLT R] [DecidableLE R] in
/-- **C101 (separated data, in general).** A job that is Lloyd's algorithm up to rounding returns the clusters of
the exact algorithm if the exact iterations are separated. -/
theorem C101_near_is_lloyd {dist : (Fin n → F) → (Fin n → F) → F} {γ ζ e η Λ X : F} {N np : Nat}
    {data : Nat → Fin n → R} {cents0 : Fin k → Fin n → R} {tol : R} {maxIters iters : Nat} {same : Prop}
    {assign : Nat → Option (Fin k)} {counts : Nat → Fin k → Int} {cents : Nat → Fin k → Fin n → R}
    (hγ : γ ≤ 1) (hγ0 : 0 ≤ γ) (he : 0 ≤ e) (hη : 0 ≤ η) (hX0 : 0 ≤ X)
    (hX : ∀ r, r < N → ∀ j, |val (data r j)| ≤ X)
    (hΛ : ∀ x y y' : Fin n → F, (∀ j, |y' j - y j| ≤ e * X + η) → |dist x y' - dist x y| ≤ Λ)
    (h : NearJobResult fin val dist γ ζ e η N np data cents0 tol maxIters same iters assign counts cents)
    (tr : Nat → Snap F k n)
    (hl : LloydTrace dist N (fun r j => val (data r j)) (fun c j => val (cents0 c j)) tr)
    (hs : ∀ i, i < maxIters → Separated dist γ ζ Λ N (fun r j => val (data r j)) (tr i) (tr (i + 1))) :
    SameClustersJob val (e * X + η) N np tol maxIters tr iters assign counts cents := by
  obtain ⟨m, tr', h1, h2, h3, h4, h5, rfl, h6, h7, h8, _⟩ := h
  have hf := near_follows hγ hγ0 he hη hX0 hX (fun i _ r _ c h => hΛ _ _ _ h) h3 hl fun i hi => hs i (by omega)
  have hch : ∀ i, i ≤ iters → numChanged N (tr' (i - 1)).assign (tr' i).assign =
      numChanged N (tr (i - 1)).assign (tr i).assign := fun i hi =>
    NearLloyd.numChanged_congr (hf (i - 1) (by omega)).1 (hf i hi).1
  have hassign : ∀ r, r < N → assign r = (tr iters).assign r := by
    intro r hr
    rw [h6 r hr, (hf iters le_rfl).1 r hr]
  refine ⟨h1, h2, ?_, ?_, hassign, ?_⟩
  · intro i hi hi'
    have := h4 i hi hi'
    dsimp only at this ⊢
    rw [hch i (by omega)] at this
    exact this
  · dsimp only at h5 ⊢
    rw [hch iters le_rfl] at h5
    exact h5
  · intro p hp
    refine ⟨fun c => ?_, fun c j => ?_⟩
    · rw [(h7 p hp).1 c, Kmeans.count_congr hassign]
    · rw [(h7 p hp).2, (h8 c j).2]
      exact (hf iters le_rfl).2 c j

end General

/-! ### IEEE doubles -/

section Double

variable [Zero R] [Add R] [Sub R] [Mul R] [Div R] [IntCast R] [LT R]
  [NatCast R] [LE R] {fin : R → Prop} {val : R → ℝ} {sqrt abs' : R → R} {big : R}
  {data : Nat → Row R n} {g np nt W : Nat} {cents0 : Fin k → Row R n}

/-- Input that cannot overflow: as `DoubleInput`, with at least one row per rank.  `W` bounds the number of
additions a rank makes for one sum (`g + 1` always does, `width_le`). -/
structure JobInput (fin : R → Prop) (val : R → ℝ) (big : R) (data : Nat → Row R n) (g np nt W : Nat)
    (cents0 : Fin k → Row R n) : Prop where
  k_pos : 0 < k
  np_pos : 0 < np
  np_le : np ≤ g
  nt_pos : 0 < nt
  g_lt : g < 4294967296
  col_le : n ≤ 4294967296
  width : ∀ p, p < np → procNrow g np p / effThreads nt (procNrow g np p) +
    procNrow g np p % effThreads nt (procNrow g np p) + effThreads nt (procNrow g np p) ≤ W
  width_le : W ≤ 4294967296
  big : fin big ∧ val big = maxDouble
  rows : ∀ r, r < g → InBox fin val (2 ^ (400 : Int)) (data r)
  start : ∀ c, InBox fin val (2 ^ (400 : Int)) (cents0 c)

theorem width_le (hnp : 0 < np) (hg : np ≤ g) (hnt : 0 < nt) (p : Nat) (hp : p < np) :
    procNrow g np p / effThreads nt (procNrow g np p) +
      procNrow g np p % effThreads nt (procNrow g np p) + effThreads nt (procNrow g np p) ≤ g + 1 := by
  have hle : procNrow g np p ≤ g := procNrow_le hp
  have hpos : 0 < procNrow g np p := procNrow_pos hnp hg
  generalize procNrow g np p = N at *
  have h1 : 0 < effThreads nt N := effThreads_pos hnt hpos
  have h2 : effThreads nt N ≤ N := effThreads_le
  generalize effThreads nt N = T at *
  have h3 := Nat.div_add_mod N T
  have h4 : 1 ≤ N / T := Nat.div_pos h2 h1
  generalize N / T = q at *
  generalize N % T = r at *
  have : q + T ≤ T * q + 1 := by
    obtain ⟨q', rfl⟩ := Nat.exists_eq_add_of_le h4
    obtain ⟨T', rfl⟩ := Nat.exists_eq_add_of_le (show 1 ≤ T by omega)
    have : (1 + T') * (1 + q') = 1 + T' + q' + T' * q' := by ring
    rw [this]
    generalize T' * q' = z
    omega
  omega

omit [Zero R] [Add R] [Sub R] [Mul R] [Div R] [IntCast R] [LT R] [NatCast R] [LE R] in
theorem JobInput.sizes (h : JobInput fin val big data g np nt W cents0) :
    JobSizes fin val (2 ^ (-53 : Int)) (2 ^ (-1075 : Int)) maxDouble (2 ^ (400 : Int)) (2 ^ (402 : Int)) (2 ^ 53) g
      np nt W data where
  np_pos := h.np_pos
  np_le := h.np_le
  nt_pos := h.nt_pos
  g_lt := h.g_lt
  g_le := h.g_lt.le.trans (by norm_num)
  width := h.width
  rows := h.rows
  x_le := p_le (by norm_num)
  mean_le := by
    have hw := h.width_le
    have hg := h.g_lt
    have hn := h.np_le
    have h1 := mul_le_mul_of_nonneg_right (pow2 (m := W + np) (by omega)) (p_pos 400).le
    have h2 : (2 : ℝ) ^ (-1075 : Int) ≤ 2 ^ (401 : Int) := p_le (by norm_num)
    refine (add_le_add h1 h2).trans (le_of_eq ?_)
    rw [p_mul, show (1 : Int) + 400 = 401 by norm_num, show (402 : Int) = 1 + 401 by norm_num,
      zpow_add₀ (by norm_num) 1 401, zpow_one]
    ring
  sum_le := by
    have hw := h.width_le
    have hg := h.g_lt
    have hn := h.np_le
    have h1 := mul_le_mul_of_nonneg_right (nat_p h.g_lt.le) (p_pos 400).le
    have h2 := mul_le_mul (pow2 (m := W + np) (by omega)) h1
      (by positivity) (p_pos _).le
    refine h2.trans (le_trans (le_of_eq ?_) ((p_le (show (433 : Int) ≤ 1023 by norm_num)).trans p_le_max))
    rw [p_mul, p_mul]; norm_num

omit [Zero R] [Add R] [Sub R] [Mul R] [Div R] [IntCast R] [LT R] [NatCast R] [LE R] in
theorem DistRounds.mono {B : ℝ} {dist : Row R n → Row R n → R} {dF : (Fin n → ℝ) → (Fin n → ℝ) → ℝ} {γ γ' ζ ζ' : ℝ}
    (hd : ∀ x y, 0 ≤ dF x y) (hγ : γ ≤ γ') (hζ : ζ ≤ ζ') (h : DistRounds fin val B dist big dF γ ζ) :
    DistRounds fin val B dist big dF γ' ζ' where
  big_fin := h.big_fin
  near := fun x y hx hy => by
    obtain ⟨h1, h2, h3⟩ := h.near x y hx hy
    exact ⟨h1, h2, h3.trans (add_le_add (mul_le_mul_of_nonneg_right hγ (hd _ _)) hζ)⟩

/-- The Euclidean distance on doubles. -/
theorem distRounds_double_eucl (hI : IeeeDouble fin val sqrt abs') (hbig : fin big ∧ val big = maxDouble)
    (hn : n ≤ 4294967296) :
    DistRounds (n := n) fin val (2 ^ (402 : Int)) (Dist.euclAny sqrt) big (fun x y => √(sqDistance x y))
      ((n + 4 : Nat) * 2 ^ (-52 : Int)) (2 ^ (-520 : Int)) := by
  have hb := sq_bound hn
  have hbM : (2 : ℝ) ^ (841 : Int) ≤ maxDouble := (p_le (by norm_num)).trans p_le_max
  have h1u : (1 : ℝ) + 2 ^ (-53 : Int) ≤ 2 ^ (1 : Int) := by
    have := pow2 (m := 1) (by norm_num)
    rwa [pow_one] at this
  have hsq : ∀ {y : ℝ} (e : Int), y ≤ 2 ^ (2 * e) → √y ≤ 2 ^ e := by
    intro y e hy
    apply Real.sqrt_le_iff.2
    refine ⟨(p_pos e).le, hy.trans (le_of_eq ?_)⟩
    rw [← zpow_natCast, ← zpow_mul, mul_comm]; norm_num
  have hbig' : (1 + 2 ^ (-53 : Int)) * √(((1 : ℝ) + 2 ^ (-53 : Int)) ^ n *
      (n * ((1 + 2 ^ (-53 : Int)) ^ 3 * (2 * 2 ^ (402 : Int)) ^ 2 + 2 ^ (-1075 : Int)))) < val big := by
    have h2 := hsq 421 (hb.trans (p_le (by norm_num)))
    have h3 := mul_le_mul h1u h2 (Real.sqrt_nonneg _) (p_pos _).le
    rw [p_mul] at h3
    refine h3.trans_lt ?_
    rw [hbig.2]
    exact (zpow_lt_zpow_right₀ (by norm_num) (by norm_num)).trans_le p_le_max
  refine DistRounds.mono (fun _ _ => Real.sqrt_nonneg _) (pow_rounds (m := n + 4) (by omega)).1 ?_
    (distRounds_eucl (n := n) hI.rounds hI.sqrt_rounds hbig.1 big_box.1 big_box.2 (hb.trans hbM) hbig')
  have h3 := mul_le_mul h1u (hsq (-521) (under_bound hn)) (Real.sqrt_nonneg _) (p_pos _).le
  rw [p_mul] at h3
  exact h3

/-- The taxicab distance on doubles. -/
theorem distRounds_double_taxi (hI : IeeeDouble fin val sqrt abs') (hbig : fin big ∧ val big = maxDouble)
    (hn : n ≤ 4294967296) :
    DistRounds (n := n) fin val (2 ^ (402 : Int)) (Dist.taxiAny abs') big taxiDistance
      ((n + 1 : Nat) * 2 ^ (-52 : Int)) 0 := by
  have h1u : (1 : ℝ) + 2 ^ (-53 : Int) ≤ 2 ^ (1 : Int) := by
    have := pow2 (m := 1) (by norm_num)
    rwa [pow_one] at this
  have hbig' : ((1 : ℝ) + 2 ^ (-53 : Int)) ^ n * (n * ((1 + 2 ^ (-53 : Int)) * (2 * 2 ^ (402 : Int)))) < val big := by
    have e : (2 : ℝ) * 2 ^ (402 : Int) = 2 ^ (403 : Int) := by
      rw [show (403 : Int) = 1 + 402 by norm_num, zpow_add₀ (by norm_num), zpow_one]
    rw [e]
    have h1 := mul_le_mul_of_nonneg_right h1u (p_pos 403).le
    have h2 := mul_le_mul (nat_p hn) h1 (by positivity) (p_pos _).le
    have h3 := mul_le_mul (pow2 (m := n) (hn.trans (by norm_num))) h2 (by positivity) (p_pos _).le
    refine h3.trans_lt ?_
    rw [p_mul, p_mul, p_mul, hbig.2]
    exact (zpow_lt_zpow_right₀ (by norm_num) (by norm_num)).trans_le p_le_max
  exact DistRounds.mono (fun _ _ => Finset.sum_nonneg fun _ _ => abs_nonneg _)
    (pow_rounds (m := n + 1) (by omega)).1 le_rfl
    (distRounds_taxi (n := n) hI.rounds hI.abs hbig.1 big_box.1 (by rw [hbig.2]) hbig')

omit [Zero R] [Add R] [Sub R] [Mul R] [IntCast R] [LT R] in
theorem NearJobResult.mono {dist : (Fin n → ℝ) → (Fin n → ℝ) → ℝ} {γ ζ e e' η : ℝ} (he : e ≤ e') {N np : Nat}
    {cents0 : Fin k → Fin n → R} {tol : R} {maxIters : Nat} {same : Prop} {iters : Nat}
    {assign : Nat → Option (Fin k)} {counts : Nat → Fin k → Int} {cents : Nat → Fin k → Fin n → R}
    (h : NearJobResult fin val dist γ ζ e η N np data cents0 tol maxIters same iters assign counts cents) :
    NearJobResult fin val dist γ ζ e' η N np data cents0 tol maxIters same iters assign counts cents := by
  obtain ⟨m, tr, h1, h2, h3, h4⟩ := h
  refine ⟨m, tr, h1, h2, ⟨h3.cents, h3.unassigned, fun i hi => ⟨(h3.step i hi).assigned, fun c j => ?_⟩⟩, h4⟩
  exact ((h3.step i hi).means c j).trans (add_le_add (mul_le_mul_of_nonneg_right he (memberMean_nonneg N _ _ c j)) le_rfl)

variable [DecidableLT R] [DecidableLE R] (hI : IeeeDouble fin val sqrt abs') (tol : R) (maxIters : Nat)
    (sched : Nat → Nat → List Nat) (hin : JobInput fin val big data g np nt W cents0) (hm : 0 < maxIters)
    (hc : SchedOk g np nt sched) (tree : Nat → Fin k → Fin n → SumTree) (ht : OrderOk np tree)
    (procs : Nat → Kmeans.KState R k n) (hp0 : ∀ p, p < np → (procs p).cltrs.means = cents0)

include hI hin hm hc ht hp0

/-- **C101 for doubles, Euclidean distance.** -/
theorem C101_double_eucl :
    ∃ res v, runBy (fun i c j x => (tree i c j).eval x) (Dist.euclAny sqrt) big data g np nt tol maxIters sched procs
        = .ok res ∧
      gather g np (fun p => (res.procs p).assign) = .ok v ∧
      NearJobResult fin val (fun x y => √(sqDistance x y)) ((n + 4 : Nat) * 2 ^ (-52 : Int)) (2 ^ (-520 : Int))
        ((W + np : Nat) * 2 ^ (-52 : Int)) (2 ^ (-1075 : Int)) g np data cents0 tol maxIters (∀ i, tree i = tree 0)
        res.iters v (fun p => (res.procs p).counts) (fun p => (res.procs p).cltrs.means) := by
  have hw := hin.width_le
  have hg := hin.g_lt
  have hn := hin.np_le
  obtain ⟨res, v, h1, h2, h3⟩ := C101_near hI.rounds hin.k_pos (distRounds_double_eucl hI hin.big hin.col_le) data g np
    nt W tol maxIters sched hin.sizes tree ht cents0
    (fun c => Kmeans.InBox.mono (hin.start c) (p_le (by norm_num))) procs hp0 hm hc
  exact ⟨res, v, h1, h2, NearJobResult.mono (pow_rounds (m := W + np) (by omega)).1 h3⟩

/-- **C101 for doubles, taxicab distance.** -/
theorem C101_double_taxi :
    ∃ res v, runBy (fun i c j x => (tree i c j).eval x) (Dist.taxiAny abs') big data g np nt tol maxIters sched procs
        = .ok res ∧
      gather g np (fun p => (res.procs p).assign) = .ok v ∧
      NearJobResult fin val taxiDistance ((n + 1 : Nat) * 2 ^ (-52 : Int)) 0
        ((W + np : Nat) * 2 ^ (-52 : Int)) (2 ^ (-1075 : Int)) g np data cents0 tol maxIters (∀ i, tree i = tree 0)
        res.iters v (fun p => (res.procs p).counts) (fun p => (res.procs p).cltrs.means) := by
  have hw := hin.width_le
  have hg := hin.g_lt
  have hn := hin.np_le
  obtain ⟨res, v, h1, h2, h3⟩ := C101_near hI.rounds hin.k_pos (distRounds_double_taxi hI hin.big hin.col_le) data g np
    nt W tol maxIters sched hin.sizes tree ht cents0
    (fun c => Kmeans.InBox.mono (hin.start c) (p_le (by norm_num))) procs hp0 hm hc
  exact ⟨res, v, h1, h2, NearJobResult.mono (pow_rounds (m := W + np) (by omega)).1 h3⟩

/-- **C101 for doubles, separated data, Euclidean distance.** `X` bounds the rows,
`δ = (W+np) 2^-52 X + 2^-1075` is the error of a centroid, and distances move by at most `√n δ`.  The result
is the same for every number of ranks and threads, every interleaving and every order of the reductions. -/
theorem C101_double_eucl_separated
    (X : ℝ) (hX0 : 0 ≤ X) (hX : ∀ r, r < g → ∀ j, |val (data r j)| ≤ X)
    (δ : ℝ) (hδ : δ = (W + np : Nat) * 2 ^ (-52 : Int) * X + 2 ^ (-1075 : Int))
    (tr : Nat → Snap ℝ k n)
    (hl : LloydTrace (fun x y => √(sqDistance x y)) g (fun r j => val (data r j))
      (fun c j => val (cents0 c j)) tr)
    (hs : ∀ i, i < maxIters → Separated (fun x y => √(sqDistance x y)) ((n + 4 : Nat) * 2 ^ (-52 : Int))
      (2 ^ (-520 : Int)) (√n * δ) g (fun r j => val (data r j)) (tr i) (tr (i + 1))) :
    ∃ res v, runBy (fun i c j x => (tree i c j).eval x) (Dist.euclAny sqrt) big data g np nt tol maxIters sched procs
        = .ok res ∧
      gather g np (fun p => (res.procs p).assign) = .ok v ∧
      SameClustersJob val δ g np tol maxIters tr res.iters v (fun p => (res.procs p).counts)
        (fun p => (res.procs p).cltrs.means) := by
  obtain ⟨res, v, h1, h2, h3⟩ := C101_double_eucl hI tol maxIters sched hin hm hc tree ht procs hp0
  have hw := hin.width_le
  have hg := hin.g_lt
  have hn := hin.np_le
  have hcol := hin.col_le
  refine ⟨res, v, h1, h2, ?_⟩
  rw [hδ]
  refine C101_near_is_lloyd (gamma_le (by omega)).1 (gamma_le (by omega)).2 (gamma_le (by omega)).2 (p_pos _).le
    hX0 hX ?_ h3 tr hl hs
  intro x y y' h
  rw [hδ]
  exact eucl_lip h

/-- **C101 for doubles, separated data, taxicab distance.** -/
theorem C101_double_taxi_separated
    (X : ℝ) (hX0 : 0 ≤ X) (hX : ∀ r, r < g → ∀ j, |val (data r j)| ≤ X)
    (δ : ℝ) (hδ : δ = (W + np : Nat) * 2 ^ (-52 : Int) * X + 2 ^ (-1075 : Int))
    (tr : Nat → Snap ℝ k n)
    (hl : LloydTrace taxiDistance g (fun r j => val (data r j)) (fun c j => val (cents0 c j)) tr)
    (hs : ∀ i, i < maxIters → Separated taxiDistance (((n + 1 : Nat) : ℝ) * 2 ^ (-52 : Int))
      (0 : ℝ) ((n : ℝ) * δ) g (fun r j => val (data r j)) (tr i) (tr (i + 1))) :
    ∃ res v, runBy (fun i c j x => (tree i c j).eval x) (Dist.taxiAny abs') big data g np nt tol maxIters sched procs
        = .ok res ∧
      gather g np (fun p => (res.procs p).assign) = .ok v ∧
      SameClustersJob val δ g np tol maxIters tr res.iters v (fun p => (res.procs p).counts)
        (fun p => (res.procs p).cltrs.means) := by
  obtain ⟨res, v, h1, h2, h3⟩ := C101_double_taxi hI tol maxIters sched hin hm hc tree ht procs hp0
  have hw := hin.width_le
  have hg := hin.g_lt
  have hn := hin.np_le
  have hcol := hin.col_le
  refine ⟨res, v, h1, h2, ?_⟩
  rw [hδ]
  refine C101_near_is_lloyd (gamma_le (by omega)).1 (gamma_le (by omega)).2 (gamma_le (by omega)).2 (p_pos _).le
    hX0 hX ?_ h3 tr hl hs
  intro x y y' h
  rw [hδ]
  exact taxi_lip h

end Double

/-! ### An example: the rows 0, 1, 10, 11 on two ranks with two threads each -/

/-- The first reduction adds rank 0 first, later ones rank 1. -/
def sepTree (i : Nat) (_ : Fin 2) (_ : Fin 1) : SumTree :=
  if i = 0 then .node (.leaf 0) (.leaf 1) else .node (.leaf 1) (.leaf 0)

theorem sepTree_ok : OrderOk 2 sepTree := by
  intro i c j
  unfold sepTree
  split <;> (unfold SumTree.ranks; decide)

theorem sched4_ok : SchedOk 4 2 2 sched4 := by
  intro i p hp t ht
  have hp' : p = 0 ∨ p = 1 := by omega
  rcases hp' with rfl | rfl
  · have : effThreads 2 (procNrow 4 2 0) = 2 := by decide
    have : t = 0 ∨ t = 1 := by omega
    rcases this with rfl | rfl <;> (unfold sched4; decide)
  · have : effThreads 2 (procNrow 4 2 1) = 2 := by decide
    have : t = 0 ∨ t = 1 := by omega
    rcases this with rfl | rfl <;> (unfold sched4; decide)

theorem sep_job : JobInput Dbl.Fin' Dbl.v ⟨maxDouble⟩ sepData 4 2 2 3 sepInit.cltrs.means where
  k_pos := by norm_num
  np_pos := by norm_num
  np_le := by norm_num
  nt_pos := by norm_num
  g_lt := by norm_num
  col_le := by norm_num
  width := by
    intro p hp
    have hp' : p = 0 ∨ p = 1 := by omega
    rcases hp' with rfl | rfl <;> decide
  width_le := by norm_num
  big := sep_input.big
  rows := sep_input.rows
  start := sep_input.start

/-- The job on doubles makes the exact assignments; all centroids are within `6·10^-14` of 1/2 and 21/2. -/
example (tol : Dbl) : ∃ res v,
    runBy (fun i c j x => (sepTree i c j).eval x) (Dist.euclAny fun x => Dbl.rnd (√x.v)) ⟨maxDouble⟩ sepData 4 2 2 tol 5
      sched4 (fun _ => sepInit) = .ok res ∧
    gather 4 2 (fun p => (res.procs p).assign) = .ok v ∧
      SameClustersJob Dbl.v ((5 : Nat) * 2 ^ (-52 : Int) * 11 + 2 ^ (-1075 : Int)) 4 2 tol 5 sepTrace res.iters v
        (fun p => (res.procs p).counts) (fun p => (res.procs p).cltrs.means) := by
  refine C101_double_eucl_separated Dbl.ieee tol 5 sched4 sep_job (by norm_num) sched4_ok sepTree sepTree_ok
    (fun _ => sepInit) (fun _ _ => rfl) 11 (by norm_num) ?_ _ rfl sepTrace sep_lloyd fun i _ => sep_separated i
  intro r hr j
  have : r = 0 ∨ r = 1 ∨ r = 2 ∨ r = 3 := by omega
  rcases this with rfl | rfl | rfl | rfl <;> norm_num [sepData, sepRow, abs_le]

/-- What the theorem says about any data in the range, here with the taxicab distance. -/
example (tol : Dbl) : ∃ res v,
    runBy (fun i c j x => (sepTree i c j).eval x) (Dist.taxiAny fun x => ⟨|x.v|⟩) ⟨maxDouble⟩ sepData 4 2 2 tol 5
      sched4 (fun _ => sepInit) = .ok res ∧
    gather 4 2 (fun p => (res.procs p).assign) = .ok v ∧
    NearJobResult Dbl.Fin' Dbl.v taxiDistance ((2 : Nat) * 2 ^ (-52 : Int)) 0 ((5 : Nat) * 2 ^ (-52 : Int))
      (2 ^ (-1075 : Int)) 4 2 sepData sepInit.cltrs.means tol 5 (∀ i, sepTree i = sepTree 0) res.iters v
      (fun p => (res.procs p).counts) (fun p => (res.procs p).cltrs.means) :=
  C101_double_taxi Dbl.ieee tol 5 sched4 sep_job (by norm_num) sched4_ok sepTree sepTree_ok
    (fun _ => sepInit) (fun _ _ => rfl)

/-! ### With rounding the order matters -/

open Knor.Repro (Fl)

/-- Three ranks with one row each: 8, 1, 1; one cluster; three-bit arithmetic. -/
def orderRun (t : SumTree) : Res (Option ℚ) :=
  match runBy (fun _ (_ : Fin 1) (_ : Fin 1) x => t.eval x) Dist.sqeuclAny (.of 2000)
      (fun r _ => if r = 0 then .of 8 else .of 1) 3 3 1 (.of 0) 5 (fun _ _ => [0])
      (fun _ => { cltrs := ⟨fun _ _ => Fl.of 0, fun _ => 0, fun _ => false⟩, assign := fun _ => none,
                  counts := fun _ => 0, changed := 0 }) with
  | .error e => .error e
  | .ok res => .ok ((res.procs 0).cltrs.means 0 0).val

/-- Adding in rank order the mean 10/3 is computed as 4, from the other end as 7/2: two runs of one program on
the same data need not return the same numbers. -/
theorem C101_order_matters :
    orderRun (.node (.node (.leaf 0) (.leaf 1)) (.leaf 2)) = .ok (some 4) ∧
    orderRun (.node (.leaf 0) (.node (.leaf 1) (.leaf 2))) = .ok (some (7/2)) := by
  constructor <;> decide +kernel

/-- With exact arithmetic both orders give 10/3. -/
example : ∀ t ∈ [SumTree.node (.node (.leaf 0) (.leaf 1)) (.leaf 2), .node (.leaf 0) (.node (.leaf 1) (.leaf 2))],
    OrderOk (k := 1) (n := 1) 3 (fun _ _ _ => t) ∧
    (runBy (fun _ (_ : Fin 1) (_ : Fin 1) x => t.eval x) (fun x y => (x 0 - y 0) * (x 0 - y 0)) (2000 : ℚ)
      (fun r _ => if r = 0 then 8 else 1) 3 3 1 (0 : ℚ) 5 (fun _ _ => [0])
      (fun _ => { cltrs := ⟨fun _ _ => (0 : ℚ), fun _ => 0, fun _ => false⟩, assign := fun _ => none,
                  counts := fun _ => 0, changed := 0 })).map (fun res => (res.procs 0).cltrs.means 0 0) = .ok (10/3) := by
  intro t ht
  simp only [List.mem_cons, List.not_mem_nil, or_false] at ht
  rcases ht with rfl | rfl
  · exact ⟨fun _ _ _ => by unfold SumTree.ranks; decide, by decide +kernel⟩
  · exact ⟨fun _ _ _ => by unfold SumTree.ranks; decide, by decide +kernel⟩

end Knor.Distr
