import Verif.Lemmas.DistrPruneNear
import Verif.Props.DistrNear

/-!
# Property C102: pruned distributed k-means in floating-point arithmetic

C21 says that the pruned distributed version is Lloyd's algorithm if arithmetic is exact.  On doubles two errors
grow with the run: the upper bound of a row is increased by the movement of its centroid, in rounded arithmetic,
and after the first iteration the centroids are not added up again but corrected by the rows that moved.  Pruning
with a bound that is too small can skip a nearer centroid.  The theorems bound both: for every order of the
reductions and every interleaving the job is Lloyd's algorithm on all rows up to errors that grow linearly with
the iteration budget, and on data whose exact iterations are separated it returns the clusters of the unpruned exact
algorithm.
-/

namespace Knor.Distr

open Knor Knor.Par Knor.Partition Knor.Spec Knor.NearLloyd Knor.Prune

variable {R F : Type _} {k n : Nat}

section General

variable [Zero R] [Add R] [Sub R] [Mul R] [Div R] [IntCast R] [NatCast R]
  [LT R] [DecidableLT R] [LE R] [DecidableLE R] [Field F] [LinearOrder F]
  [IsStrictOrderedRing F] {fin : R → Prop} {val : R → F} {u η M X : F} {K : Nat}

/-- The run from any state that the ranks share and in which every row has the bound `big`, or the distance to its own
centroid up to the error of the distances. -/
theorem runPrunedBy_from (hA : RoundsAll fin val u η M K)
    (hle : ∀ x y, fin x → fin y → (x ≤ y ↔ val x ≤ val y)) {B ε Dm G κ : F}
    {eucl : Row R n → Row R n → R} {big : R} {dF : (Fin n → F) → (Fin n → F) → F} (data : Nat → Row R n)
    (g np nt W : Nat) (tol : R) (maxIters : Nat) (sched : Nat → Nat → List Nat)
    (hk : 1 < k) (hD : MetricRounds fin val B eucl big dF ε Dm) (hDm : 2 * Dm ≤ M) (hDm0 : 0 ≤ Dm) (hε : 0 ≤ ε)
    (hX : 0 ≤ X) (hXB : X + maxIters * κ ≤ B)
    (hS : PSizes fin val u M X K g np nt W data) (hE : PErr u η M X G κ g W np maxIters) (hm : 0 < maxIters)
    (tree : Nat → Fin k → Fin n → SumTree) (ht : OrderOk np tree) (hc : TaskSchedOk g np nt sched)
    (cents0 : Fin k → Row R n) (h0 : ∀ c, InBox fin val B (cents0 c)) (procs : Nat → DProc R R k n)
    (s0 : PState R R k n) (hrel0 : Rel g np procs s0) (hwf0 : DistMatrix.WF k s0.dm) (hm0 : s0.cltrs.means = cents0)
    (hrow0 : ∀ r, r < g → StartSlot fin val dF ε Dm big (data r) cents0 (s0.slots r)) :
    ∃ res v, runPrunedBy (fun i c j x => (tree i c j).eval x) eucl eucl big data g np nt tol maxIters sched procs
        = .ok res ∧
      gather g np (fun p r => ((res.procs p).core.slots r).assign) = .ok v ∧
      NearJobResult fin val dF 0 (((maxIters + 3 : Nat) : F) * (ε + u * (2 * Dm))) 0 (maxIters * κ) g np data cents0 tol
        maxIters False res.iters v (fun p => (res.procs p).core.counts) (fun p => (res.procs p).core.cltrs.means) := by
  have hconv : ∀ ch : Nat, Kmeans.convTest g tol ch = true ↔ (ch = 0 ∨ (ch : R) / (g : R) ≤ tol) := by
    intro ch; unfold Kmeans.convTest; simp
  have hnp := hS.np_pos
  let Inv : Nat → (Nat → DProc R R k n) → Prop := fun i ps =>
    ∃ s tr, Rel g np ps s ∧ DistMatrix.WF k s.dm ∧ (∀ c, InBox fin val B (s.cltrs.means c)) ∧
      NearLloydRun dF 0 (((maxIters + 3 : Nat) : F) * (ε + u * (2 * Dm))) 0 (maxIters * κ) g
        (fun r j => val (data r j)) (fun c j => val (cents0 c j)) i tr ∧
      (tr i).cents = (fun c j => val (s.cltrs.means c j)) ∧
      (i = 0 → ∀ r, r < g → StartSlot fin val dF ε Dm big (data r) s.cltrs.means (s.slots r)) ∧
      (∀ j, 1 ≤ j → j < i → Kmeans.convTest g tol (numChanged g (tr (j - 1)).assign (tr j).assign) = false) ∧
      (i ≠ 0 → PGood fin val B dF (((i + 1 : Nat) : F) * (ε + u * (2 * Dm))) Dm (i * κ) data g s ∧
        (∀ r, r < g → (s.slots r).assign = (tr i).assign r) ∧
        (∀ c, s.counts c = (Spec.count g (tr i).assign c : Int)) ∧
        s.changed = numChanged g (tr (i - 1)).assign (tr i).assign)
  have hstart : Inv 0 procs :=
    ⟨s0, fun _ => ⟨fun c j => val (cents0 c j), fun _ => none⟩, hrel0, hwf0, by rw [hm0]; exact h0,
      ⟨rfl, fun _ => rfl, fun i hi => by omega⟩, by rw [hm0], fun _ => by rw [hm0]; exact hrow0, fun j h1 h2 => by omega,
      fun h => absurd rfl h⟩
  unfold runPrunedBy
  rw [construct_ok hnp hS.np_le]
  simp only
  obtain ⟨res, e, ⟨s, tr, hrel, hwf, hbox, htr, hmeans, _, hns, hge⟩, _, h2, h3⟩ := loop_inv
    (stop := fun s : DProc R R k n => Kmeans.convTest g tol s.core.changed)
    (body := fun i => iterationPrunedBy (fun c j x => (tree i c j).eval x) eucl eucl big data g np nt (decide (i = 0))
      (sched i))
    hnp hm Inv
    (by
      rintro i ps hi ⟨s, tr, hrel, hwf, hbox, htr, hmeans, hub, hns, hge⟩ hst
      obtain ⟨s', ps', e', hrel', hgood', hcnt, hch, hnear, hmean⟩ := iterationPrunedBy_good hA hle hk hD hDm hDm0 hε hX
        hXB hS hE hi (ht i) (hc i) hrel hwf hbox hub (fun h => (hge h).1)
      refine ⟨ps', e', ⟨s', Function.update tr (i + 1) ⟨fun c j => val (s'.cltrs.means c j), assignOf s'.slots⟩,
        hrel', hgood'.wf, hgood'.box, ⟨?_, ?_, ?_⟩, ?_, fun h => by omega, ?_, ?_⟩, ?_⟩
      · rw [Function.update_of_ne (by omega)]; exact htr.cents
      · rw [Function.update_of_ne (by omega)]; exact htr.unassigned
      · intro j hj
        rw [Function.update_of_ne (show j ≠ i + 1 by omega)]
        by_cases hji : j = i
        · subst hji
          rw [Function.update_self]
          refine ⟨?_, ?_⟩
          · intro r hr
            obtain ⟨a, h1, h2⟩ := hnear r hr
            refine ⟨a, h1, ?_⟩
            rw [hmeans]; exact h2
          · intro c j
            simp only
            rw [zero_mul, zero_add]
            exact hmean c j
        · rw [Function.update_of_ne (show j + 1 ≠ i + 1 by omega)]
          exact htr.step j (by omega)
      · rw [Function.update_self]
      · intro j hj1 hj2
        rw [Function.update_of_ne (show j ≠ i + 1 by omega),
            Function.update_of_ne (show j - 1 ≠ i + 1 by omega)]
        by_cases hji : j = i
        · subst hji
          have hi0 : j ≠ 0 := by omega
          rcases hst with h | h
          · exact absurd h hi0
          · rw [← (hge hi0).2.2.2, ← hrel.changed 0 hnp]
            exact h
        · exact hns j hj1 (by omega)
      · intro _
        rw [Function.update_self, Function.update_of_ne (show i + 1 - 1 ≠ i + 1 by omega)]
        simp only [Nat.add_sub_cancel]
        refine ⟨hgood', fun _ _ => rfl, hcnt, ?_⟩
        rw [hch]
        by_cases hi0 : i = 0
        · subst hi0
          simp only [if_true]
          unfold numChanged
          rw [Finset.filter_true_of_mem, Finset.card_range]
          intro r hr
          obtain ⟨a, h1, _⟩ := hnear r (Finset.mem_range.1 hr)
          rw [htr.unassigned r]
          unfold Prune.assignOf
          rw [h1]
          simp
        · rw [if_neg hi0]
          exact Kmeans.numChanged_congr (fun r hr => (hge hi0).2.1 r hr) fun _ _ => rfl
      · intro p hp
        rw [hrel'.changed p hp, hrel'.changed 0 hnp])
    maxIters 0 procs (by omega) (by omega) hstart (Or.inl rfl)
  have hit : res.iters ≠ 0 := by
    rcases h3 with ⟨h, _⟩ | ⟨h, _⟩ <;> omega
  obtain ⟨q1, q2, q3, q4⟩ := hge hit
  obtain ⟨v, ev, hv⟩ := gather_eq (g := g) hnp (fun p r => ((res.procs p).core.slots r).assign)
  have hvr : ∀ r, r < g → v r = (tr res.iters).assign r := by
    intro r hr
    obtain ⟨p, q, hp, hq, rfl⟩ := exists_off hnp hr
    rw [hv p q hp hq, hrel.slots p q hp hq, q2 _ hr]
  refine ⟨res, v, e, ev, res.iters, tr, by omega, h2, htr, ?_, ?_, rfl, hvr, ?_, ?_, fun h => h.elim⟩
  · intro j h1 h2 hs
    have := hns j h1 h2
    rw [(hconv _).2 hs] at this
    simp at this
  · rcases h3 with ⟨h, _⟩ | ⟨_, h⟩
    · exact Or.inr h
    · left
      have := (hconv _).1 h
      rw [hrel.changed 0 hnp, q4] at this
      exact this
  · intro p hp
    refine ⟨fun c => ?_, ?_⟩
    · dsimp only
      rw [hrel.counts p hp, q3 c, Kmeans.count_congr hvr]
    · dsimp only
      rw [hrel.cltrs p hp, hrel.cltrs 0 hnp]
  · intro c j
    dsimp only
    rw [hrel.cltrs 0 hnp, hmeans]
    exact ⟨(hbox c j).1, rfl⟩

/-- **C102 (in general).** Start every rank of the pruned version with the same centroids.  For a metric with
known error (`MetricRounds`) and numbers that are small enough (`PSizes`, `PErr`): for every order of every reduction
and every interleaving of the threads of every rank, the job returns and is Lloyd's algorithm on all rows up to
rounding. -/
theorem C102_near (hA : RoundsAll fin val u η M K)
    (hle : ∀ x y, fin x → fin y → (x ≤ y ↔ val x ≤ val y)) {B ε Dm G κ : F}
    {eucl : Row R n → Row R n → R} {big : R} {dF : (Fin n → F) → (Fin n → F) → F} (data : Nat → Row R n)
    (g np nt W : Nat) (tol : R) (maxIters : Nat) (sched : Nat → Nat → List Nat)
    (hk : 1 < k) (hD : MetricRounds fin val B eucl big dF ε Dm) (hDm : 2 * Dm ≤ M) (hDm0 : 0 ≤ Dm) (hε : 0 ≤ ε)
    (hX : 0 ≤ X) (hXB : X + maxIters * κ ≤ B)
    (hS : PSizes fin val u M X K g np nt W data) (hE : PErr u η M X G κ g W np maxIters) (hm : 0 < maxIters)
    (tree : Nat → Fin k → Fin n → SumTree) (ht : OrderOk np tree) (hc : TaskSchedOk g np nt sched)
    (cents0 : Fin k → Row R n) (h0 : ∀ c, InBox fin val B (cents0 c)) (procs : Nat → DProc R R k n)
    (hp0 : ∀ p, p < np → constructPruned big cents0 = .ok (procs p)) :
    ∃ res v, runPrunedBy (fun i c j x => (tree i c j).eval x) eucl eucl big data g np nt tol maxIters sched procs
        = .ok res ∧
      gather g np (fun p r => ((res.procs p).core.slots r).assign) = .ok v ∧
      NearJobResult fin val dF 0 (((maxIters + 3 : Nat) : F) * (ε + u * (2 * Dm))) 0 (maxIters * κ) g np data cents0 tol
        maxIters False res.iters v (fun p => (res.procs p).core.counts) (fun p => (res.procs p).core.cltrs.means) := by
  obtain ⟨m0, hm0, wf0, _⟩ := DistMatrix.create_wf (big := big) (k := k) (by omega)
  set s0 : Prune.PState R R k n :=
    { cltrs := Clusters.empty.setMeans cents0
      prevMeans := fun _ _ => 0
      prevDist := fun _ => 0
      sval := fun _ => big
      dm := m0
      slots := fun _ => { assign := none, ub := big, recalc := false }
      counts := fun _ => 0
      changed := 0 } with hs0
  have hinit : ∀ p, p < np → procs p = ⟨s0, fun _ => 0⟩ := by
    intro p hp
    have h := hp0 p hp
    unfold constructPruned Prune.construct at h
    rw [hm0] at h
    simp only [Except.ok.injEq] at h
    exact h.symm
  refine runPrunedBy_from hA hle data g np nt W tol maxIters sched hk hD hDm hDm0 hε hX hXB hS hE hm tree ht hc cents0 h0
    procs s0 ⟨?_, ?_, ?_, ?_, ?_, ?_, ?_, ?_⟩ wf0 rfl (fun r _ => .inl rfl)
  all_goals (intro p; intros; rw [hinit p (by assumption)])

omit [Zero R] [Add R] [Sub R] [Mul R] [IntCast R] [LT R] [DecidableLT R] [DecidableLE R] in
theorem NearJobResult.weaken {dist : (Fin n → F) → (Fin n → F) → F} {γ ζ ζ' e η η' : F} (hζ : ζ ≤ ζ') (hη : η ≤ η')
    {N np : Nat} {data : Nat → Fin n → R}
    {cents0 : Fin k → Fin n → R} {tol : R} {maxIters : Nat} {iters : Nat}
    {assign : Nat → Option (Fin k)} {counts : Nat → Fin k → Int} {cents : Nat → Fin k → Fin n → R}
    (h : NearJobResult fin val dist γ ζ e η N np data cents0 tol maxIters False iters assign counts cents) :
    NearJobResult fin val dist γ ζ' e η' N np data cents0 tol maxIters False iters assign counts cents := by
  obtain ⟨m, tr, h1, h2, h3, h4, h5, h6, h7, h8, h9, _⟩ := h
  refine ⟨m, tr, h1, h2, ⟨h3.cents, h3.unassigned, fun i hi => ⟨fun r hr => ?_, fun c j => ?_⟩⟩, h4, h5, h6, h7, h8, h9,
    fun h => h.elim⟩
  · obtain ⟨c, hc1, hc2⟩ := (h3.step i hi).assigned r hr
    refine ⟨c, hc1, fun c' => (hc2 c').trans ?_⟩
    linarith
  · exact ((h3.step i hi).means c j).trans (add_le_add le_rfl hη)

end General

/-! ### IEEE doubles, Euclidean distance -/

section Double

theorem eucl_symm (x y : Fin n → ℝ) : √(sqDistance x y) = √(sqDistance y x) := by
  unfold sqDistance
  congr 1
  exact Finset.sum_congr rfl fun j _ => by ring

theorem eucl_tri (x y z : Fin n → ℝ) : √(sqDistance x z) ≤ √(sqDistance x y) + √(sqDistance y z) := by
  have e : ∀ a b : Fin n → ℝ, √(sqDistance a b) = ‖(WithLp.toLp 2 a : EuclideanSpace ℝ (Fin n)) - WithLp.toLp 2 b‖ := by
    intro a b
    rw [EuclideanSpace.norm_eq]
    unfold sqDistance
    congr 1
    apply Finset.sum_congr rfl
    intro j _
    simp
  rw [e, e, e]
  exact norm_sub_le_norm_sub_add_norm_sub _ _ _

/-- Distances in a box. -/
theorem eucl_le {B : ℝ} {x y : Fin n → ℝ} (hx : ∀ j, |x j| ≤ B) (hy : ∀ j, |y j| ≤ B) :
    √(sqDistance x y) ≤ 2 * √n * B := by
  have h := eucl_lip (x := x) (y := x) (y' := y) (δ := 2 * B) fun j => by
    have := abs_sub (y j) (x j)
    linarith [hx j, hy j]
  have e : √(sqDistance x x) = 0 := by simp [sqDistance]
  rw [e, sub_zero, abs_of_nonneg (Real.sqrt_nonneg _)] at h
  linarith

variable [Zero R] [Add R] [Sub R] [Mul R] [Div R] [IntCast R] [LT R]
  [NatCast R] [LE R] {fin : R → Prop} {val : R → ℝ} {sqrt abs' : R → R} {big : R}
  {data : Nat → Row R n} {g np nt W : Nat} {cents0 : Fin k → Row R n}

theorem sqrt_n_le (hn : n ≤ 4294967296) : √(n : ℝ) ≤ 2 ^ (16 : Int) := by
  apply Real.sqrt_le_iff.2
  refine ⟨(p_pos _).le, (nat_p hn).trans (le_of_eq ?_)⟩
  norm_num

/-- The Euclidean distance on doubles: `D` bounds the distances in the box. -/
theorem metricRounds_double (hI : IeeeDouble fin val sqrt abs') (hbig : fin big ∧ val big = maxDouble)
    (hn0 : 0 < n) (hn : n ≤ 4294967296) {B D : ℝ} (hB1 : 2 ^ (-400 : Int) ≤ B) (hB2 : B ≤ 2 ^ (402 : Int))
    (hDe : D = 2 * √n * B) :
    MetricRounds (n := n) fin val B (Dist.euclAny sqrt) big (fun x y => √(sqDistance x y))
      ((n + 6 : Nat) * 2 ^ (-52 : Int) * D) (2 * D) := by
  have hn1 : (1 : ℝ) ≤ √(n : ℝ) := Real.one_le_sqrt.2 (by exact_mod_cast hn0)
  have hB0 : 0 < B := (p_pos _).trans_le hB1
  have hD1 : (2 : ℝ) ^ (-400 : Int) ≤ D := by
    rw [hDe]
    have : 1 * B ≤ √(n : ℝ) * B := mul_le_mul_of_nonneg_right hn1 hB0.le
    linarith
  have hD0 : 0 < D := (p_pos _).trans_le hD1
  have hD2 : 2 * D ≤ 2 ^ (420 : Int) := by
    have h1 := mul_le_mul (sqrt_n_le hn) hB2 hB0.le (p_pos _).le
    rw [p_mul] at h1
    have h2 : (2 : ℝ) ^ (420 : Int) = 4 * 2 ^ ((16 : Int) + 402) := by
      rw [show (420 : Int) = 2 + (16 + 402) by norm_num, zpow_add₀ (by norm_num) 2]; norm_num
    rw [hDe, h2]
    linarith
  have hγ := gamma_le (m := n + 6) (by omega)
  have hR := distRounds_double_eucl hI hbig hn
  have hsmall : (2 : ℝ) ^ (-520 : Int) ≤ 2 ^ (-52 : Int) * D / 4 := by
    have h1 := mul_le_mul_of_nonneg_left hD1 (p_pos (-52)).le
    rw [p_mul] at h1
    have h2 : (2 : ℝ) ^ ((-52 : Int) + -400) = 4 * 2 ^ (-454 : Int) := by
      rw [show (-52 : Int) + -400 = 2 + -454 by norm_num, zpow_add₀ (by norm_num) 2]; norm_num
    have h3 : (2 : ℝ) ^ (-520 : Int) ≤ 2 ^ (-454 : Int) := p_le (by norm_num)
    rw [h2] at h1
    generalize (2 : ℝ) ^ (-52 : Int) * D = w at *
    generalize (2 : ℝ) ^ (-520 : Int) = a at *
    generalize (2 : ℝ) ^ (-454 : Int) = b at *
    linarith
  have hsmall2 : (2 : ℝ) ^ (-1075 : Int) ≤ 2 ^ (-52 : Int) * D / 4 := (p_le (by norm_num)).trans hsmall
  have hγe : ((n + 6 : Nat) : ℝ) * 2 ^ (-52 : Int) * D = ((n + 4 : Nat) : ℝ) * 2 ^ (-52 : Int) * D +
      2 * (2 ^ (-52 : Int) * D) := by push_cast; ring
  have hγD : ((n + 6 : Nat) : ℝ) * 2 ^ (-52 : Int) * D ≤ D := by
    have := mul_le_mul_of_nonneg_right hγ.1 hD0.le
    linarith
  have hw0 : 0 ≤ (2 : ℝ) ^ (-52 : Int) * D := mul_nonneg (p_pos _).le hD0.le
  have h53 : (2 : ℝ) ^ (-53 : Int) = 2 ^ (-52 : Int) / 2 := by
    rw [show (-53 : Int) = -52 + -1 by norm_num, zpow_add₀ (by norm_num)]; norm_num
  have hnear : ∀ x y : Row R n, InBox fin val B x → InBox fin val B y → fin (Dist.euclAny sqrt x y) ∧
      0 ≤ val (Dist.euclAny sqrt x y) ∧ √(sqDistance (fun j => val (x j)) fun j => val (y j)) ≤ D ∧
      |val (Dist.euclAny sqrt x y) - √(sqDistance (fun j => val (x j)) fun j => val (y j))| ≤
        ((n + 4 : Nat) : ℝ) * 2 ^ (-52 : Int) * D + 2 ^ (-52 : Int) * D / 4 := by
    intro x y hx hy
    have hx' := Kmeans.InBox.mono hx hB2
    have hy' := Kmeans.InBox.mono hy hB2
    obtain ⟨h1, _, h3⟩ := hR.near x y hx' hy'
    obtain ⟨q1, _, _, q4⟩ := sq_near hI.rounds big_box.1 big_box.2
      ((sq_bound hn).trans ((p_le (by norm_num)).trans p_le_max)) hx' hy'
    have hd := eucl_le (fun j => (hx j).2) (fun j => (hy j).2)
    rw [← hDe] at hd
    refine ⟨h1, nearest_nonneg (Real.sqrt_nonneg _) (hI.sqrt _ q1 q4).2, hd, h3.trans ?_⟩
    refine add_le_add (mul_le_mul_of_nonneg_left hd ?_) hsmall
    exact (gamma_le (m := n + 4) (by omega)).2
  have htwo : fin ((2 : Nat) : R) ∧ val ((2 : Nat) : R) = 2 := by
    have h2d : IsDouble ((2 : Nat) : ℝ) := nat_isDouble (by norm_num)
    obtain ⟨h1, h2⟩ := hI.nat 2 (isDouble_le h2d)
    exact ⟨h1, (nearest_of_double h2 h2d).trans (by norm_num)⟩
  refine ⟨hbig.1, ?_, eucl_symm, eucl_tri, ?_, ?_⟩
  · rw [hbig.2]
    exact hD2.trans_lt ((zpow_lt_zpow_right₀ (by norm_num) (by norm_num)).trans_le p_le_max)
  · intro x y hx hy
    obtain ⟨h1, h2, h3, h4⟩ := hnear x y hx hy
    have := (abs_le.1 h4).2
    rw [hγe] at hγD ⊢
    generalize ((n + 4 : Nat) : ℝ) * 2 ^ (-52 : Int) * D = e at *
    generalize (2 : ℝ) ^ (-52 : Int) * D = w at *
    exact ⟨h1, h2, by linarith, h4.trans (by linarith)⟩
  · intro x y hx hy
    obtain ⟨h1, h2, h3, h4⟩ := hnear x y hx hy
    have h5 := abs_le.1 h4
    rw [hγe] at hγD ⊢
    have h6 : val (Dist.euclAny sqrt x y) ≤ 2 * D := by
      generalize ((n + 4 : Nat) : ℝ) * 2 ^ (-52 : Int) * D = e at *
      generalize (2 : ℝ) ^ (-52 : Int) * D = w at *
      linarith
    have habs : |val (Dist.euclAny sqrt x y) / val ((2 : Nat) : R)| = val (Dist.euclAny sqrt x y) / 2 := by
      rw [htwo.2, abs_of_nonneg (by linarith)]
    have hM : |val (Dist.euclAny sqrt x y) / val ((2 : Nat) : R)| ≤ maxDouble := by
      rw [habs]
      have h7 : val (Dist.euclAny sqrt x y) / 2 ≤ 2 * D := by linarith only [h6, h2]
      exact (h7.trans hD2).trans ((p_le (show (420 : Int) ≤ 1023 by norm_num)).trans p_le_max)
    obtain ⟨q1, q2⟩ := hI.rounds.div _ _ h1 htwo.1 (by rw [htwo.2]; norm_num) hM
    rw [habs, htwo.2] at q2
    have e : Dist.euclAny sqrt x y / (2 : R) = Dist.euclAny sqrt x y / ((2 : Nat) : R) := rfl
    rw [e]
    have q3 : |val (Dist.euclAny sqrt x y / ((2 : Nat) : R)) - val (Dist.euclAny sqrt x y) / 2| ≤
        2 ^ (-52 : Int) * D := by
      refine q2.trans ?_
      have : (2 : ℝ) ^ (-53 : Int) * (val (Dist.euclAny sqrt x y) / 2) ≤ 2 ^ (-53 : Int) * D :=
        mul_le_mul_of_nonneg_left (by linarith) (p_pos _).le
      have e2 : (2 : ℝ) ^ (-53 : Int) * D = 2 ^ (-52 : Int) * D / 2 := by rw [h53]; ring
      rw [e2] at this
      generalize (2 : ℝ) ^ (-52 : Int) * D = w at *
      generalize (2 : ℝ) ^ (-53 : Int) * (val (Dist.euclAny sqrt x y) / 2) = z at *
      generalize (2 : ℝ) ^ (-1075 : Int) = z' at *
      linarith
    have q4 := abs_le.1 q3
    have hd0 := Real.sqrt_nonneg (sqDistance (fun j => val (x j)) fun j => val (y j))
    have he0 : 0 ≤ ((n + 4 : Nat) : ℝ) * 2 ^ (-52 : Int) * D :=
      mul_nonneg (gamma_le (m := n + 4) (by omega)).2 hD0.le
    generalize ((n + 4 : Nat) : ℝ) * 2 ^ (-52 : Int) * D = e at *
    generalize (2 : ℝ) ^ (-52 : Int) * D = w at *
    refine ⟨q1, by linarith, ?_⟩
    rw [abs_le]
    constructor <;> linarith

/-- Input that cannot overflow: `X` bounds the rows and the start, `W` the number of additions a rank makes for one
sum (`g + 1` always does, `width_le`), and the number of iterations is such that the rounding of the running sums
cannot exceed the sums. -/
structure PrunedInput (fin : R → Prop) (val : R → ℝ) (big : R) (data : Nat → Row R n) (g np nt W maxIters : Nat)
    (X : ℝ) (cents0 : Fin k → Row R n) : Prop where
  k_gt : 1 < k
  np_pos : 0 < np
  np_le : np ≤ g
  nt_pos : 0 < nt
  g_lt : g + 8192 < 4294967296
  col_pos : 0 < n
  col_le : n ≤ 4294967296
  width : ∀ p, p < np → procNrow g np p / effThreads nt (procNrow g np p) +
    procNrow g np p % effThreads nt (procNrow g np p) + effThreads nt (procNrow g np p) ≤ W
  width_le : W ≤ 4294967296
  iters_pos : 0 < maxIters
  iters_le : maxIters * (W + np + 7) ≤ 2 ^ 52
  big : fin big ∧ val big = maxDouble
  x_ge : 2 ^ (-400 : Int) ≤ X
  x_le : X ≤ 2 ^ (368 : Int)
  rows : ∀ r, r < g → InBox fin val X (data r)
  start : ∀ c, InBox fin val X (cents0 c)

/-- The error of a centroid: every iteration adds `W + np + 7` roundings of sums of size at most `g X`. -/
noncomputable def pErr (g np W maxIters : Nat) (X : ℝ) : ℝ :=
  maxIters * ((W + np + 7 : Nat) * 2 ^ (-52 : Int) * (g * X))

/-- The error of a distance: `n + 8` roundings of a distance of points in the box, in each iteration. -/
noncomputable def pDist (n g np W maxIters : Nat) (X : ℝ) : ℝ :=
  (maxIters + 3 : Nat) * ((n + 8 : Nat) * 2 ^ (-52 : Int) * (2 * √n * (X + pErr g np W maxIters X)))

/-- The run on doubles from any state that the ranks share. -/
theorem runPrunedBy_double [DecidableLT R] [DecidableLE R] (hI : IeeeDouble fin val sqrt abs') (tol : R) (maxIters : Nat) (X : ℝ)
    (sched : Nat → Nat → List Nat)
    (hin : PrunedInput fin val big data g np nt W maxIters X (fun (_ : Fin k) (_ : Fin n) => (0 : R)))
    (hc : TaskSchedOk g np nt sched) (tree : Nat → Fin k → Fin n → SumTree) (ht : OrderOk np tree)
    (procs : Nat → DProc R R k n) (h0 : ∀ c, InBox fin val (X + pErr g np W maxIters X) (cents0 c))
    (s0 : PState R R k n) (hrel0 : Rel g np procs s0) (hwf0 : DistMatrix.WF k s0.dm) (hm0 : s0.cltrs.means = cents0)
    (hrow0 : ∀ r, r < g → StartSlot fin val (fun x y => √(sqDistance x y))
      ((n + 6 : Nat) * 2 ^ (-52 : Int) * (2 * √n * (X + pErr g np W maxIters X)))
      (2 * (2 * √n * (X + pErr g np W maxIters X))) big (data r) cents0 (s0.slots r)) :
    ∃ res v, runPrunedBy (fun i c j x => (tree i c j).eval x) (Dist.euclAny sqrt) (Dist.euclAny sqrt) big data g np nt
        tol maxIters sched procs = .ok res ∧
      gather g np (fun p r => ((res.procs p).core.slots r).assign) = .ok v ∧
      NearJobResult fin val (fun x y => √(sqDistance x y)) 0 (pDist n g np W maxIters X) 0 (pErr g np W maxIters X) g np
        data cents0 tol maxIters False res.iters v (fun p => (res.procs p).core.counts)
        (fun p => (res.procs p).core.cltrs.means) := by
  have hX0 : 0 < X := (p_pos _).trans_le hin.x_ge
  have hg0 : 0 < g := lt_of_lt_of_le hin.np_pos hin.np_le
  have hgX : 0 ≤ (g : ℝ) * X := mul_nonneg (Nat.cast_nonneg _) hX0.le
  have hw := hin.width_le
  have hgl := hin.g_lt
  have hnp := hin.np_le
  obtain ⟨hp1, hp2⟩ := pow_rounds (m := W + np) (by omega)
  have h53 : (2 : ℝ) ^ (-53 : Int) = 2 ^ (-52 : Int) / 2 := by
    rw [show (-53 : Int) = -52 + -1 by norm_num, zpow_add₀ (by norm_num)]; norm_num
  set κ : ℝ := ((1 + 2 ^ (-53 : Int)) ^ (W + np) - 1 + 13 * 2 ^ (-53 : Int)) * (g * X) with hκ
  have hκle : κ ≤ (W + np + 7 : Nat) * 2 ^ (-52 : Int) * (g * X) := by
    rw [hκ]
    refine mul_le_mul_of_nonneg_right ?_ hgX
    rw [h53] at hp1 ⊢
    have hw0 : (0 : ℝ) < 2 ^ (-52 : Int) := p_pos _
    have e : ((W + np + 7 : Nat) : ℝ) * 2 ^ (-52 : Int) = ((W + np : Nat) : ℝ) * 2 ^ (-52 : Int) + 7 * 2 ^ (-52 : Int) := by
      push_cast; ring
    rw [e]
    generalize ((1 : ℝ) + 2 ^ (-52 : Int) / 2) ^ (W + np) = q at *
    generalize (2 : ℝ) ^ (-52 : Int) = w at *
    linarith
  have hηle : maxIters * κ ≤ pErr g np W maxIters X :=
    mul_le_mul_of_nonneg_left hκle (Nat.cast_nonneg _)
  have hηG : pErr g np W maxIters X ≤ g * X := by
    have h1 : ((maxIters * (W + np + 7) : Nat) : ℝ) ≤ ((2 ^ 52 : Nat) : ℝ) := by exact_mod_cast hin.iters_le
    have h2 := mul_le_mul_of_nonneg_right h1 (p_pos (-52)).le
    have h3 : ((2 ^ 52 : Nat) : ℝ) * 2 ^ (-52 : Int) = 1 := by norm_num
    rw [h3] at h2
    have h4 := mul_le_mul_of_nonneg_right h2 hgX
    unfold pErr
    push_cast at h4 ⊢
    linarith
  have hη0 : 0 ≤ pErr g np W maxIters X := by
    have := p_pos (-52)
    unfold pErr
    positivity
  have hg32 : ((g : ℝ) + 1) * X ≤ 2 ^ (400 : Int) := by
    have h1 : ((g + 1 : Nat) : ℝ) ≤ 2 ^ (32 : Int) := nat_p (by omega)
    have h2 := mul_le_mul h1 hin.x_le hX0.le (p_pos _).le
    rw [p_mul] at h2
    push_cast at h2
    exact h2.trans (p_le (by norm_num))
  set B := X + pErr g np W maxIters X with hB
  have hB1 : 2 ^ (-400 : Int) ≤ B := hin.x_ge.trans (by linarith)
  have hB2 : B ≤ 2 ^ (402 : Int) := by
    refine le_trans ?_ (hg32.trans (p_le (by norm_num)))
    linarith
  set D := 2 * √(n : ℝ) * B with hD
  have hB0 : 0 ≤ B := (p_pos _).le.trans hB1
  have hD0 : 0 ≤ D := by positivity
  have hmet := metricRounds_double hI hin.big hin.col_pos hin.col_le hB1 hB2 hD
  have hD2 : 2 * (2 * D) ≤ maxDouble := by
    have h1 := mul_le_mul (sqrt_n_le hin.col_le) hB2 hB0 (p_pos _).le
    rw [p_mul] at h1
    have h2 : (2 : ℝ) ^ (421 : Int) = 8 * 2 ^ ((16 : Int) + 402) := by
      rw [show (421 : Int) = 3 + (16 + 402) by norm_num, zpow_add₀ (by norm_num) 3]; norm_num
    refine le_trans ?_ ((p_le (show (421 : Int) ≤ 1023 by norm_num)).trans p_le_max)
    rw [hD, h2]
    linarith
  have hgX2 : 5 * ((g : ℝ) * X) ≤ maxDouble := by
    refine le_trans ?_ ((p_le (show (403 : Int) ≤ 1023 by norm_num)).trans p_le_max)
    have h2 : (2 : ℝ) ^ (403 : Int) = 8 * 2 ^ (400 : Int) := by
      rw [show (403 : Int) = 3 + 400 by norm_num, zpow_add₀ (by norm_num) 3]; norm_num
    rw [h2]
    have h400 := p_pos 400
    generalize (2 : ℝ) ^ (400 : Int) = b at *
    nlinarith only [hg32, hgX, hX0, h400]
  have hS : PSizes fin val (2 ^ (-53 : Int)) maxDouble X (2 ^ 53) g np nt W data :=
    ⟨hin.np_pos, hin.np_le, hin.nt_pos, hin.g_lt, le_trans (by omega) (by norm_num : 4294967296 ≤ 2 ^ 53), hin.width,
      hin.rows, by
        refine (mul_le_mul_of_nonneg_right hp2 hgX).trans ?_
        linarith⟩
  have hE : PErr (2 ^ (-53 : Int)) (2 ^ (-1075 : Int)) maxDouble X (g * X) κ g W np maxIters :=
    ⟨by norm_num, hp2, le_rfl, by
        have h1 : (2 : ℝ) ^ (-1075 : Int) ≤ 2 ^ (-53 : Int) * 2 ^ (-400 : Int) := by
          rw [p_mul]; exact p_le (by norm_num)
        have h2 := h1.trans (mul_le_mul_of_nonneg_left hin.x_ge (p_pos (-53)).le)
        have h3 := mul_le_mul_of_nonneg_left h2 (Nat.cast_nonneg (α := ℝ) g)
        linarith, hgX2, rfl, hηle.trans hηG⟩
  obtain ⟨res, v, h1, h2, h3⟩ := runPrunedBy_from hI.rounds hI.le data g np nt W tol maxIters sched hin.k_gt hmet hD2
    (by linarith)
    (mul_nonneg (gamma_le (m := n + 6) (by have := hin.col_le; omega)).2 hD0) hX0.le (add_le_add le_rfl hηle) hS hE
    hin.iters_pos tree ht hc cents0 h0 procs s0 hrel0 hwf0 hm0 hrow0
  refine ⟨res, v, h1, h2, NearJobResult.weaken (le_of_eq ?_) hηle h3⟩
  unfold pDist
  rw [← hB, ← hD]
  congr 1
  rw [h53]
  push_cast
  ring


variable [DecidableLT R] [DecidableLE R] (hI : IeeeDouble fin val sqrt abs') (tol : R) (maxIters : Nat) (X : ℝ)
    (sched : Nat → Nat → List Nat) (hin : PrunedInput fin val big data g np nt W maxIters X cents0)
    (hc : TaskSchedOk g np nt sched) (tree : Nat → Fin k → Fin n → SumTree) (ht : OrderOk np tree)
    (procs : Nat → DProc R R k n) (hp0 : ∀ p, p < np → constructPruned big cents0 = .ok (procs p))

include hI hin hc ht hp0

/-- **C102 for doubles.**  Pruned distributed k-means with the Euclidean distance, started with the same centroids
on every rank: for every order of every reduction and every interleaving of the threads of every rank, the job
returns and is Lloyd's algorithm on all rows up to `pDist` in the distances and `pErr` in the centroids. -/
theorem C102_double_eucl :
    ∃ res v, runPrunedBy (fun i c j x => (tree i c j).eval x) (Dist.euclAny sqrt) (Dist.euclAny sqrt) big data g np nt
        tol maxIters sched procs = .ok res ∧
      gather g np (fun p r => ((res.procs p).core.slots r).assign) = .ok v ∧
      NearJobResult fin val (fun x y => √(sqDistance x y)) 0 (pDist n g np W maxIters X) 0 (pErr g np W maxIters X) g np
        data cents0 tol maxIters False res.iters v (fun p => (res.procs p).core.counts)
        (fun p => (res.procs p).core.cltrs.means) := by
  obtain ⟨m0, hm0, wf0, _⟩ := DistMatrix.create_wf (big := big) (k := k) hin.k_gt
  set s0 : Prune.PState R R k n :=
    { cltrs := Clusters.empty.setMeans cents0
      prevMeans := fun _ _ => 0
      prevDist := fun _ => 0
      sval := fun _ => big
      dm := m0
      slots := fun _ => { assign := none, ub := big, recalc := false }
      counts := fun _ => 0
      changed := 0 } with hs0
  have hinit : ∀ p, p < np → procs p = ⟨s0, fun _ => 0⟩ := by
    intro p hp
    have h := hp0 p hp
    unfold constructPruned Prune.construct at h
    rw [hm0] at h
    simp only [Except.ok.injEq] at h
    exact h.symm
  have hX0 : 0 < X := (p_pos _).trans_le hin.x_ge
  have hη0 : 0 ≤ pErr g np W maxIters X := by
    have := p_pos (-52)
    unfold pErr
    positivity
  refine runPrunedBy_double hI tol maxIters X sched { hin with start := fun c j => ⟨hI.zero.1, by
      rw [hI.zero.2, abs_zero]; exact hX0.le⟩ } hc tree ht procs
    (fun c => Kmeans.InBox.mono (hin.start c) (by linarith)) s0 ⟨?_, ?_, ?_, ?_, ?_, ?_, ?_, ?_⟩ wf0 rfl
    (fun r _ => .inl rfl)
  all_goals (intro p; intros; rw [hinit p (by assumption)])

/-- **C102 for doubles, separated data.**  If the exact Lloyd iterations are separated by more than the errors, the
pruned job makes the same assignments and as many iterations; its centroids are within `pErr`. -/
theorem C102_double_eucl_separated (tr : Nat → Snap ℝ k n)
    (hl : LloydTrace (fun x y => √(sqDistance x y)) g (fun r j => val (data r j))
      (fun c j => val (cents0 c j)) tr)
    (hs : ∀ i, i < maxIters → Separated (fun x y => √(sqDistance x y)) 0 (pDist n g np W maxIters X)
      (√n * pErr g np W maxIters X) g (fun r j => val (data r j)) (tr i) (tr (i + 1))) :
    ∃ res v, runPrunedBy (fun i c j x => (tree i c j).eval x) (Dist.euclAny sqrt) (Dist.euclAny sqrt) big data g np nt
        tol maxIters sched procs = .ok res ∧
      gather g np (fun p r => ((res.procs p).core.slots r).assign) = .ok v ∧
      SameClustersJob val (pErr g np W maxIters X) g np tol maxIters tr res.iters v (fun p => (res.procs p).core.counts)
        (fun p => (res.procs p).core.cltrs.means) := by
  obtain ⟨res, v, h1, h2, h3⟩ := C102_double_eucl hI tol maxIters X sched hin hc tree ht procs hp0
  have hX0 : 0 < X := (p_pos _).trans_le hin.x_ge
  have hη0 : 0 ≤ pErr g np W maxIters X := by
    have := p_pos (-52)
    unfold pErr
    positivity
  refine ⟨res, v, h1, h2, ?_⟩
  have h := C101_near_is_lloyd (Λ := √n * pErr g np W maxIters X) (X := X) zero_le_one le_rfl le_rfl hη0 hX0.le
    (fun r hr j => (hin.rows r hr j).2)
    (by
      intro x y y' h
      rw [zero_mul, zero_add] at h
      exact eucl_lip h) h3 tr hl hs
  rw [zero_mul, zero_add] at h
  exact h

omit [Zero R] [Add R] [Sub R] [Mul R] [IntCast R] [LT R] [DecidableLT R] [DecidableLE R] hI hin hc ht hp0 in
/-- Two jobs that return the clusters of the same exact iterations agree. -/
theorem SameClustersJob.agree {N np np' : Nat} {δ δ' : ℝ} {tr : Nat → Snap ℝ k n} {it it' : Nat}
    {a a' : Nat → Option (Fin k)} {ct ct' : Nat → Fin k → Int} {m m' : Nat → Fin k → Fin n → R}
    (h : SameClustersJob val δ N np tol maxIters tr it a ct m)
    (h' : SameClustersJob val δ' N np' tol maxIters tr it' a' ct' m') :
    it = it' ∧ (∀ r, r < N → a r = a' r) ∧ ∀ p p', p < np → p' < np' → (∀ c, ct p c = ct' p' c) ∧
      ∀ c j, |val (m p c j) - val (m' p' c j)| ≤ δ + δ' := by
  obtain ⟨h1, h2, h3, h4, h5, h6⟩ := h
  obtain ⟨k1, k2, k3, k4, k5, k6⟩ := h'
  have e : it = it' := by
    rcases Nat.lt_trichotomy it it' with hlt | heq | hlt
    · rcases h4 with h | h
      · exact absurd h (k3 it h1 hlt)
      · omega
    · exact heq
    · rcases k4 with h | h
      · exact absurd h (h3 it' k1 hlt)
      · omega
  subst e
  refine ⟨rfl, fun r hr => (h5 r hr).trans (k5 r hr).symm, fun p p' hp hp' => ⟨fun c => ?_, fun c j => ?_⟩⟩
  · rw [(h6 p hp).1 c, (k6 p' hp').1 c]
  · have e1 := abs_le.1 ((h6 p hp).2 c j)
    have e2 := abs_le.1 ((k6 p' hp').2 c j)
    rw [abs_le]
    constructor <;> linarith

/-- **C102 (pruning changes nothing on separated data).**  The pruned job and the unpruned job, with any numbers of
ranks and threads, any interleavings and any orders of the reductions, make the same number of iterations and return
the same assignment and the same sizes; their centroids differ by rounding only. -/
theorem C102_same_as_unpruned {np' nt' W' : Nat} (hin' : JobInput fin val big data g np' nt' W' cents0)
    (sched' : Nat → Nat → List Nat) (hc' : SchedOk g np' nt' sched') (tree' : Nat → Fin k → Fin n → SumTree)
    (ht' : OrderOk np' tree') (procs' : Nat → Kmeans.KState R k n)
    (hp0' : ∀ p, p < np' → (procs' p).cltrs.means = cents0) (tr : Nat → Snap ℝ k n)
    (hl : LloydTrace (fun x y => √(sqDistance x y)) g (fun r j => val (data r j))
      (fun c j => val (cents0 c j)) tr)
    (hs : ∀ i, i < maxIters → Separated (fun x y => √(sqDistance x y)) 0 (pDist n g np W maxIters X)
      (√n * pErr g np W maxIters X) g (fun r j => val (data r j)) (tr i) (tr (i + 1)))
    (δ : ℝ) (hδ : δ = (W' + np' : Nat) * 2 ^ (-52 : Int) * X + 2 ^ (-1075 : Int))
    (hs' : ∀ i, i < maxIters → Separated (fun x y => √(sqDistance x y)) ((n + 4 : Nat) * 2 ^ (-52 : Int))
      (2 ^ (-520 : Int)) (√n * δ) g (fun r j => val (data r j)) (tr i) (tr (i + 1))) :
    ∃ res v res' v', runPrunedBy (fun i c j x => (tree i c j).eval x) (Dist.euclAny sqrt) (Dist.euclAny sqrt) big data g np
        nt tol maxIters sched procs = .ok res ∧
      gather g np (fun p r => ((res.procs p).core.slots r).assign) = .ok v ∧
      runBy (fun i c j x => (tree' i c j).eval x) (Dist.euclAny sqrt) big data g np' nt' tol maxIters sched' procs'
        = .ok res' ∧
      gather g np' (fun p => (res'.procs p).assign) = .ok v' ∧
      res.iters = res'.iters ∧ (∀ r, r < g → v r = v' r) ∧ ∀ p p', p < np → p' < np' →
        (∀ c, (res.procs p).core.counts c = (res'.procs p').counts c) ∧
        ∀ c j, |val ((res.procs p).core.cltrs.means c j) - val ((res'.procs p').cltrs.means c j)| ≤
          pErr g np W maxIters X + δ := by
  obtain ⟨res, v, h1, h2, h3⟩ := C102_double_eucl_separated hI tol maxIters X sched hin hc tree ht procs hp0 tr hl hs
  have hX0 : 0 < X := (p_pos _).trans_le hin.x_ge
  obtain ⟨res', v', k1, k2, k3⟩ := C101_double_eucl_separated hI tol maxIters sched' hin' hin.iters_pos hc' tree' ht' procs'
    hp0' X hX0.le (fun r hr j => (hin.rows r hr j).2) δ hδ tr hl hs'
  exact ⟨res, v, res', v', h1, h2, k1, k2, SameClustersJob.agree tol maxIters h3 k3⟩

end Double

/-! ### An example: the rows 0, 1, 10, 11 on two ranks with two threads each -/

theorem sched4_task : TaskSchedOk 4 2 2 sched4 := by
  intro i p hp t ht
  have hp' : p = 0 ∨ p = 1 := by omega
  rcases hp' with rfl | rfl
  · have : effThreads 2 (procNrow 4 2 0) = 2 := by decide
    have : t = 0 ∨ t = 1 := by omega
    rcases this with rfl | rfl <;> (unfold sched4; decide)
  · have : effThreads 2 (procNrow 4 2 1) = 2 := by decide
    have : t = 0 ∨ t = 1 := by omega
    rcases this with rfl | rfl <;> (unfold sched4; decide)

theorem sep_pruned : PrunedInput Dbl.Fin' Dbl.v ⟨maxDouble⟩ sepData 4 2 2 3 5 16 sepInit.cltrs.means where
  k_gt := by norm_num
  np_pos := by norm_num
  np_le := by norm_num
  nt_pos := by norm_num
  g_lt := by norm_num
  col_pos := by norm_num
  col_le := by norm_num
  width := sep_job.width
  width_le := by norm_num
  iters_pos := by norm_num
  iters_le := by norm_num
  big := sep_input.big
  x_ge := by
    have : (2 : ℝ) ^ (-400 : Int) ≤ 2 ^ (4 : Int) := p_le (by norm_num)
    exact this.trans (by norm_num)
  x_le := by
    have : (2 : ℝ) ^ (4 : Int) ≤ 2 ^ (368 : Int) := p_le (by norm_num)
    exact le_trans (by norm_num) this
  rows := by
    intro r hr j
    refine ⟨(sep_input.rows r hr j).1, ?_⟩
    have : r = 0 ∨ r = 1 ∨ r = 2 ∨ r = 3 := by omega
    rcases this with rfl | rfl | rfl | rfl <;> norm_num [sepData, sepRow, abs_le]
  start := by
    intro c j
    refine ⟨(sep_input.start c j).1, ?_⟩
    match c with
    | 0 => norm_num [sepInit]
    | 1 => norm_num [sepInit]

theorem sep_pErr : 0 ≤ pErr 4 2 3 5 16 ∧ pErr 4 2 3 5 16 ≤ 1 / 1000 := by
  unfold pErr
  constructor <;> norm_num

theorem sep_pDist : 0 ≤ pDist 1 4 2 3 5 16 ∧ pDist 1 4 2 3 5 16 ≤ 1 / 1000 := by
  obtain ⟨h1, h2⟩ := sep_pErr
  unfold pDist
  generalize pErr 4 2 3 5 16 = e at *
  simp only [Nat.cast_one, Real.sqrt_one]
  norm_num
  constructor <;> linarith

theorem sep_gap {i r : Nat} (hr : r < 4) {c c' : Fin 2} (hc : (sepTrace (i + 1)).assign r = some c) (hne : c' ≠ c) :
    √(sqDistance (fun j => (sepData r j).v) ((sepTrace i).cents c)) ≤ 1 ∧
      9 ≤ √(sqDistance (fun j => (sepData r j).v) ((sepTrace i).cents c')) := by
  obtain ⟨h1, h2⟩ := sep_dist i r hr
  have ha : (sepTrace (i + 1)).assign r = if r < 2 then some 0 else some 1 := rfl
  rw [ha] at hc
  by_cases h : r < 2
  · rw [if_pos h] at hc
    cases hc
    match c' with
    | 0 => exact absurd rfl hne
    | 1 => exact h1 h
  · rw [if_neg h] at hc
    cases hc
    match c' with
    | 0 => exact h2 h
    | 1 => exact absurd rfl hne

/-- The iterations of the example are separated for the pruned version as well. -/
theorem sep_separated_pruned (i : Nat) : Separated (fun x y => √(sqDistance x y)) 0 (pDist 1 4 2 3 5 16)
    (√(1 : Nat) * pErr 4 2 3 5 16) 4 (fun r j => (sepData r j).v) (sepTrace i) (sepTrace (i + 1)) := by
  intro r hr c c' hc hne
  have hd := sep_gap hr hc hne
  obtain ⟨e1, e2⟩ := sep_pErr
  obtain ⟨e3, e4⟩ := sep_pDist
  generalize pErr 4 2 3 5 16 = a at *
  generalize pDist 1 4 2 3 5 16 = b at *
  simp only [Nat.cast_one, Real.sqrt_one, one_mul, add_zero, sub_zero]
  linarith [hd.1, hd.2]

/-- The pruned job on doubles makes the exact assignments; all centroids are within 1/1000 (in fact `10^-12`) of 1/2
and 21/2. -/
example (tol : Dbl) : ∃ s, constructPruned (⟨maxDouble⟩ : Dbl) sepInit.cltrs.means = .ok s ∧ ∃ res v,
    runPrunedBy (fun i c j x => (sepTree i c j).eval x) (Dist.euclAny fun x => Dbl.rnd (√x.v))
      (Dist.euclAny fun x => Dbl.rnd (√x.v)) ⟨maxDouble⟩ sepData 4 2 2 tol 5 sched4 (fun _ => s) = .ok res ∧
    gather 4 2 (fun p r => ((res.procs p).core.slots r).assign) = .ok v ∧
      SameClustersJob Dbl.v (pErr 4 2 3 5 16) 4 2 tol 5 sepTrace res.iters v
        (fun p => (res.procs p).core.counts) (fun p => (res.procs p).core.cltrs.means) := by
  obtain ⟨m0, hm0, _⟩ := DistMatrix.create_wf (big := (⟨maxDouble⟩ : Dbl)) (k := 2) (by omega)
  have hs : ∃ s, constructPruned (⟨maxDouble⟩ : Dbl) sepInit.cltrs.means = .ok s := by
    unfold constructPruned Prune.construct
    rw [hm0]
    exact ⟨_, rfl⟩
  obtain ⟨s, hs⟩ := hs
  exact ⟨s, hs, C102_double_eucl_separated Dbl.ieee tol 5 16 sched4 sep_pruned sched4_task sepTree sepTree_ok
    (fun _ => s) (fun _ _ => hs) sepTrace sep_lloyd fun i _ => sep_separated_pruned i⟩

/-- Pruned on two ranks and unpruned on two ranks: the hypotheses of `C102_same_as_unpruned` hold. -/
example (tol : Dbl) : ∃ s, constructPruned (⟨maxDouble⟩ : Dbl) sepInit.cltrs.means = .ok s ∧ ∃ res v res' v',
    runPrunedBy (fun i c j x => (sepTree i c j).eval x) (Dist.euclAny fun x => Dbl.rnd (√x.v))
      (Dist.euclAny fun x => Dbl.rnd (√x.v)) ⟨maxDouble⟩ sepData 4 2 2 tol 5 sched4 (fun _ => s) = .ok res ∧
    gather 4 2 (fun p r => ((res.procs p).core.slots r).assign) = .ok v ∧
    runBy (fun i c j x => (sepTree i c j).eval x) (Dist.euclAny fun x => Dbl.rnd (√x.v)) ⟨maxDouble⟩ sepData 4 2 2 tol 5
      sched4 (fun _ => sepInit) = .ok res' ∧
    gather 4 2 (fun p => (res'.procs p).assign) = .ok v' ∧ res.iters = res'.iters ∧ ∀ r, r < 4 → v r = v' r := by
  obtain ⟨m0, hm0, _⟩ := DistMatrix.create_wf (big := (⟨maxDouble⟩ : Dbl)) (k := 2) (by omega)
  have hs : ∃ s, constructPruned (⟨maxDouble⟩ : Dbl) sepInit.cltrs.means = .ok s := by
    unfold constructPruned Prune.construct
    rw [hm0]
    exact ⟨_, rfl⟩
  obtain ⟨s, hs⟩ := hs
  obtain ⟨res, v, res', v', h1, h2, h3, h4, h5, h6, _⟩ := C102_same_as_unpruned Dbl.ieee tol 5 16 sched4 sep_pruned sched4_task
    sepTree sepTree_ok (fun _ => s) (fun _ _ => hs) sep_job sched4 sched4_ok sepTree sepTree_ok (fun _ => sepInit)
    (fun _ _ => rfl) sepTrace sep_lloyd (fun i _ => sep_separated_pruned i) _ rfl
    (fun i _ => by
      intro r hr c c' hc hne
      have hd := sep_gap hr hc hne
      have b2 : (2 : ℝ) ^ (-1075 : Int) ≤ 1 / 1000 :=
        (p_le (show (-1075 : Int) ≤ -52 by norm_num)).trans (by norm_num)
      have b3 : (2 : ℝ) ^ (-520 : Int) ≤ 1 / 1000 :=
        (p_le (show (-520 : Int) ≤ -52 by norm_num)).trans (by norm_num)
      dsimp only
      generalize (2 : ℝ) ^ (-1075 : Int) = z at *
      generalize (2 : ℝ) ^ (-520 : Int) = z' at *
      generalize √(sqDistance (fun j => (sepData r j).v) ((sepTrace i).cents c)) = d at *
      generalize √(sqDistance (fun j => (sepData r j).v) ((sepTrace i).cents c')) = d' at *
      simp only [Nat.cast_one, Real.sqrt_one, one_mul]
      norm_num
      linarith [hd.1, hd.2])
  exact ⟨s, hs, res, v, res', v', h1, h2, h3, h4, h5, h6⟩

end Knor.Distr
