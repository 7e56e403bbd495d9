import Verif.Lemmas.SeedNear
import Verif.Props.DistrNear
import Verif.Props.Driver

/-!
# A whole call on doubles: distances and initialisations
-/

namespace Knor.Driver

open Knor Knor.Par Knor.Partition Knor.Spec Knor.NearLloyd Knor.Kmeans Knor.Distr Knor.Init

variable {R S : Type _} {k n : Nat} [Zero R] [Add R] [Sub R] [Mul R] [Div R] [IntCast R] [NatCast R] [LT R] [LE R]
  {fin : R → Prop} {val : R → ℝ} {sqrt abs' : R → R} {big : R}

/-- The distances of the library on the numbers `R`; the cosine distance is arbitrary.
Models libkcommon/util.hpp:76-130 and 151-166. -/
def anyDist (sqrt abs' : R → R) (cosd : Row R n → Row R n → R) :
    Dist.Metric → Row R n → Row R n → R
  | .eucl => Dist.euclAny sqrt
  | .sqeucl => Dist.sqeuclAny
  | .taxi => Dist.taxiAny abs'
  | .cos => cosd

theorem metricDist_nonneg (met : Dist.Metric) (x y : Fin n → ℝ) : 0 ≤ metricDist met x y := by
  cases met with
  | eucl => exact Real.sqrt_nonneg _
  | sqeucl => exact Finset.sum_nonneg (s := Finset.univ) (f := fun j => (x j - y j) ^ 2) fun _ _ => sq_nonneg _
  | taxi => exact Finset.sum_nonneg (s := Finset.univ) (f := fun j => |x j - y j|) fun _ _ => abs_nonneg _
  | cos => exact le_rfl

/-- A number that is near to another one is at most twice as large. -/
theorem near_double {v d c : ℝ} {e : Int} (hc : c ≤ 1) (hd0 : 0 ≤ d) (h : |v - d| ≤ c * d) (hd : d ≤ 2 ^ e)
    (he : e + 1 ≤ 900) : 0 ≤ v ∧ v ≤ 2 ^ (900 : Int) := by
  have h1 := abs_le.1 h
  have h2 : c * d ≤ 1 * d := mul_le_mul_of_nonneg_right hc hd0
  have h3 := p_le he
  rw [zpow_add₀ (by norm_num), zpow_one] at h3
  constructor
  · linarith [h1.1]
  · refine le_trans ?_ h3
    linarith [h1.2]

/-- Adding up numbers with value zero gives zero. -/
theorem foldl_zero {ι : Type _} (hI : IeeeDouble fin val sqrt abs') (t : ι → R) (l : List ι)
    (ht : ∀ i ∈ l, fin (t i) ∧ val (t i) = 0) :
    ∀ a, fin a → val a = 0 → fin (l.foldl (fun a i => a + t i) a) ∧ val (l.foldl (fun a i => a + t i) a) = 0 := by
  induction l with
  | nil => intro a h1 h2; exact ⟨h1, h2⟩
  | cons i l ih =>
    intro a h1 h2
    obtain ⟨g1, g2⟩ := ht i (by simp)
    have e : val a + val (t i) = 0 := by rw [h2, g2, add_zero]
    obtain ⟨w1, w2⟩ := hI.add a (t i) h1 g1 (by rw [e, abs_zero]; exact le_trans (p_pos 1023).le p_le_max)
    rw [e] at w2
    exact ih (fun j hj => ht j (List.mem_cons_of_mem _ hj)) _ w1 (nearest_of_double w2 isDouble_zero)

theorem diff_zero (hI : IeeeDouble fin val sqrt abs') {x y : R} (hx : fin x) (hy : fin y) (h : val x = val y) :
    fin (x - y) ∧ val (x - y) = 0 := by
  have e : val x - val y = 0 := by rw [h, sub_self]
  obtain ⟨w1, w2⟩ := hI.sub x y hx hy (by rw [e, abs_zero]; exact le_trans (p_pos 1023).le p_le_max)
  rw [e] at w2
  exact ⟨w1, nearest_of_double w2 isDouble_zero⟩

theorem sq_zero (hI : IeeeDouble fin val sqrt abs') {x y : Row R n} (hx : ∀ j, fin (x j)) (hy : ∀ j, fin (y j))
    (h : ∀ j, val (x j) = val (y j)) : fin (Dist.sqeuclAny x y) ∧ val (Dist.sqeuclAny x y) = 0 := by
  refine foldl_zero hI _ _ (fun j _ => ?_) 0 hI.zero.1 hI.zero.2
  obtain ⟨h1, h2⟩ := diff_zero hI (hx j) (hy j) (h j)
  have e : val (x j - y j) * val (x j - y j) = 0 := by rw [h2, mul_zero]
  obtain ⟨w1, w2⟩ := hI.mul _ _ h1 h1 (by rw [e, abs_zero]; exact le_trans (p_pos 1023).le p_le_max)
  rw [e] at w2
  exact ⟨w1, nearest_of_double w2 isDouble_zero⟩

/-- The distances on doubles. -/
theorem dist_double (hI : IeeeDouble fin val sqrt abs') (hbig : fin big ∧ val big = maxDouble) (hn : n ≤ 4294967296)
    (cosd : Row R n → Row R n → R) {met : Dist.Metric} (hcos : met ≠ .cos) :
    DistRounds (n := n) fin val (2 ^ (402 : Int)) (anyDist sqrt abs' cosd met) big (metricDist met)
      ((n + 4 : Nat) * 2 ^ (-52 : Int)) (metricSlack met) ∧
    ∀ x y : Row R n, InBox fin val (2 ^ (402 : Int)) x → InBox fin val (2 ^ (402 : Int)) y →
      0 ≤ val (anyDist sqrt abs' cosd met x y) ∧ val (anyDist sqrt abs' cosd met x y) ≤ 2 ^ (900 : Int) ∧
      ((∀ j, val (x j) = val (y j)) → val (anyDist sqrt abs' cosd met x y) = 0) := by
  have hb := sq_bound hn
  have hbM : (2 : ℝ) ^ (841 : Int) ≤ maxDouble := (p_le (by norm_num)).trans p_le_max
  have h900 : (2 : ℝ) ^ (841 : Int) ≤ 2 ^ (900 : Int) := p_le (by norm_num)
  have hg1 : ((n + 1 : Nat) : ℝ) * 2 ^ (-52 : Int) ≤ (n + 4 : Nat) * 2 ^ (-52 : Int) :=
    mul_le_mul_of_nonneg_right (by exact_mod_cast (by omega : n + 1 ≤ n + 4)) (p_pos _).le
  cases met with
  | cos => exact absurd rfl hcos
  | sqeucl =>
    constructor
    · refine DistRounds.mono (fun x y => metricDist_nonneg .sqeucl x y) ?_ (under_bound hn)
        (distRounds_sq (n := n) hI.rounds hbig.1 big_box.1 big_box.2 (by rw [hbig.2]) (hb.trans_lt ?_))
      · refine (pow_rounds (m := n + 3) (by omega)).1.trans ?_
        exact mul_le_mul_of_nonneg_right (by exact_mod_cast (by omega : n + 3 ≤ n + 4)) (p_pos _).le
      · rw [hbig.2]
        exact (zpow_lt_zpow_right₀ (by norm_num) (by norm_num)).trans_le p_le_max
    · intro x y hx hy
      obtain ⟨h1, h2, _, h4⟩ := sq_near hI.rounds big_box.1 big_box.2 (hb.trans hbM) hx hy
      exact ⟨h4, (le_abs_self _).trans ((h2.trans hb).trans h900), fun h =>
        (sq_zero hI (fun j => (hx j).1) (fun j => (hy j).1) h).2⟩
  | eucl =>
    refine ⟨distRounds_double_eucl hI hbig hn, fun x y hx hy => ?_⟩
    obtain ⟨h1, h2, _, h4⟩ := sq_near hI.rounds big_box.1 big_box.2 (hb.trans hbM) hx hy
    obtain ⟨g1, g2⟩ := hI.sqrt _ h1 h4
    refine ⟨nearest_nonneg (Real.sqrt_nonneg _) g2, ?_, fun h => ?_⟩
    · have h3 := (hI.sqrt_rounds _ h1 h4).2
      have h5 : √(val (Dist.sqeuclAny x y)) ≤ 2 ^ (421 : Int) := by
        apply Real.sqrt_le_iff.2
        refine ⟨(p_pos _).le, ((le_abs_self _).trans (h2.trans hb)).trans ?_⟩
        rw [← zpow_natCast, ← zpow_mul]
        exact p_le (by norm_num)
      exact (near_double (u_small.2.trans (by norm_num)) (Real.sqrt_nonneg _) h3 h5 (by norm_num)).2
    · have h0 := (sq_zero hI (fun j => (hx j).1) (fun j => (hy j).1) h).2
      rw [h0, Real.sqrt_zero] at g2
      exact nearest_of_double g2 isDouble_zero
  | taxi =>
    have hD := distRounds_double_taxi (n := n) hI hbig hn
    refine ⟨DistRounds.mono (fun x y => metricDist_nonneg .taxi x y) hg1 le_rfl hD, fun x y hx hy => ?_⟩
    obtain ⟨_, _, h3⟩ := hD.near x y hx hy
    rw [add_zero] at h3
    have hd0 := metricDist_nonneg .taxi (fun j => val (x j)) (fun j => val (y j))
    change 0 ≤ taxiDistance _ _ at hd0
    set d := taxiDistance (fun j => val (x j)) (fun j => val (y j)) with hd
    have hdle : d ≤ 2 ^ (435 : Int) := by
      have h4 : d ≤ (Finset.univ : Finset (Fin n)).card • (2 * (2 : ℝ) ^ (402 : Int)) := by
        rw [hd]
        unfold taxiDistance
        refine Finset.sum_le_card_nsmul _ _ _ fun j _ => ?_
        calc _ ≤ |val (x j)| + |val (y j)| := abs_sub _ _
          _ ≤ _ := by linarith [(hx j).2, (hy j).2]
      rw [Finset.card_univ, Fintype.card_fin, nsmul_eq_mul] at h4
      have h5 := mul_le_mul_of_nonneg_right (nat_p hn) (by positivity : (0 : ℝ) ≤ 2 * 2 ^ (402 : Int))
      refine (h4.trans h5).trans (le_of_eq ?_)
      rw [show (435 : Int) = 32 + (1 + 402) by norm_num, zpow_add₀ (by norm_num) 32, zpow_add₀ (by norm_num) 1, zpow_one]
    have hγ : ((n + 1 : Nat) : ℝ) * 2 ^ (-52 : Int) ≤ 1 := by
      have h5 : ((n + 1 : Nat) : ℝ) ≤ 2 ^ (33 : Int) := by
        have : ((n + 1 : Nat) : ℝ) ≤ ((2 ^ 33 : Nat) : ℝ) := by exact_mod_cast (by omega : n + 1 ≤ 2 ^ 33)
        exact this.trans (le_of_eq (by norm_num))
      refine (mul_le_mul_of_nonneg_right h5 (p_pos _).le).trans ?_
      rw [p_mul]
      exact (p_le (show (33 + -52 : Int) ≤ 0 by norm_num)).trans (le_of_eq (by norm_num))
    have h6 := near_double hγ hd0 h3 hdle (by norm_num)
    refine ⟨h6.1, h6.2, fun h => ?_⟩
    · have : d = 0 := by
        rw [hd]
        unfold taxiDistance
        exact Finset.sum_eq_zero fun j _ => by dsimp only; rw [h j, sub_self, abs_zero]
      rw [this, mul_zero, sub_zero] at h3
      exact abs_nonpos_iff.1 h3

/-- The rows suit k-means++. -/
theorem seed_double (hI : IeeeDouble fin val sqrt abs') (hbig : fin big ∧ val big = maxDouble) (hn : n ≤ 4294967296)
    (cosd : Row R n → Row R n → R) {met : Dist.Metric} (hcos : met ≠ .cos) {data : Nat → Row R n} {N : Nat}
    (hrows : ∀ r, r < N → InBox fin val (2 ^ (400 : Int)) (data r)) :
    SeedNear fin val (anyDist sqrt abs' cosd met) big data N (metricDist met) ((n + 4 : Nat) * 2 ^ (-52 : Int))
      (metricSlack met) := by
  obtain ⟨hD, hX⟩ := dist_double hI hbig hn cosd hcos
  have hrows' : ∀ r, r < N → InBox fin val (2 ^ (402 : Int)) (data r) := fun r hr =>
    Kmeans.InBox.mono (hrows r hr) (p_le (by norm_num))
  exact ⟨hbig.1, fun q r hq hr => (hD.near _ _ (hrows' q hq) (hrows' r hr)).1,
    fun q r hq hr => (hX _ _ (hrows' q hq) (hrows' r hr)).1,
    fun q r hq hr => (hX _ _ (hrows' q hq) (hrows' r hr)).2.1,
    fun q r hq hr => (hD.near _ _ (hrows' q hq) (hrows' r hr)).2.1,
    fun q r hq hr h => (hX _ _ (hrows' q hq) (hrows' r hr)).2.2 h,
    fun q r hq hr => (hD.near _ _ (hrows' q hq) (hrows' r hr)).2.2⟩

/-! ### Random partition -/

theorem listSum_range {M : Type _} [AddCommMonoid M] (f : Nat → M) (N : Nat) :
    ((List.range N).map f).sum = ∑ i ∈ Finset.range N, f i := by
  induction N with
  | zero => simp
  | succ N ih => rw [List.range_succ, Finset.sum_range_succ, ← ih]; simp

omit [Sub R] [Mul R] [NatCast R] [LT R] [LE R] in
/-- A centroid from a computed sum: divide if there are at least two members. -/
theorem finMean_near {F : Type _} [Field F] [LinearOrder F] [IsStrictOrderedRing F] {fin : R → Prop} {val : R → F}
    {u η M : F} {K : Nat} (hR : Rounds fin val u η M K) {N m : Nat} (hK : N ≤ K) {data : Nat → Row R n}
    {a : Nat → Option (Fin k)} {c : Fin k} {j : Fin n} {s : R}
    (hs : Near fin val u m s (memberSum N (fun r j => val (data r j)) a c j)
      (memberSum N (fun r j => |val (data r j)|) a c j))
    (hM : (1 + u) ^ m * memberSum N (fun r j => |val (data r j)|) a c j ≤ M) {v : R}
    (hv : v = if 1 < Spec.count N a c then s / ((Spec.count N a c : Int) : R) else s) :
    fin v ∧ |val v - memberMean N (fun r j => val (data r j)) a c j| ≤
      ((1 + u) ^ (m + 1) - 1) * memberMean N (fun r j => |val (data r j)|) a c j + η := by
  have hu := hR.u_nonneg
  have hS0 : 0 ≤ memberSum N (fun r j => |val (data r j)|) a c j := (abs_nonneg _).trans hs.le
  have hcount : Spec.count N a c ≤ N := count_le a c
  subst hv
  unfold memberMean
  by_cases h1 : 1 < Spec.count N a c
  · rw [if_pos h1, if_neg (by omega), if_neg (by omega)]
    refine hs.div hR (by omega) (hcount.trans hK) (le_trans ?_ hM)
    refine mul_le_mul_of_nonneg_left ?_ (by positivity)
    apply div_le_self hS0
    have : 1 ≤ Spec.count N a c := by omega
    exact_mod_cast this
  · rw [if_neg h1]
    refine ⟨hs.fin, ?_⟩
    by_cases h0 : Spec.count N a c = 0
    · rw [if_pos h0, if_pos h0]
      have hz : ∀ g : Nat → Row F n, memberSum N g a c j = 0 := by
        intro g
        unfold Spec.count at h0
        rw [Finset.card_eq_zero] at h0
        unfold memberSum
        rw [h0]; simp
      have := hs.err
      rw [hz, hz] at this
      simp only [mul_zero] at this ⊢
      linarith [hR.eta_nonneg]
    · rw [if_neg h0, if_neg h0]
      have h2 : Spec.count N a c = 1 := by omega
      rw [h2, Nat.cast_one, div_one, div_one]
      exact (hs.mono hu (Nat.le_succ m)).err.trans (le_add_of_nonneg_right hR.eta_nonneg)

omit [Zero R] [Add R] [Sub R] [Mul R] [Div R] [IntCast R] [NatCast R] [LT R] [LE R] in
/-- Size of a centroid whose error is known. -/
theorem mean_box {data : Nat → Row R n} {N : Nat} {X η P B v : ℝ} (hX0 : 0 ≤ X) (hP : 0 ≤ P)
    (hrows : ∀ r, r < N → InBox fin val X (data r)) {a : Nat → Option (Fin k)} {c : Fin k} {j : Fin n}
    (h : |v - memberMean N (fun r j => val (data r j)) a c j| ≤
      (P - 1) * memberMean N (fun r j => |val (data r j)|) a c j + η) (hB : P * X + η ≤ B) : |v| ≤ B := by
  have hsum := memberSum_abs_le hrows a c j
  have ha : memberMean N (fun r j => |val (data r j)|) a c j ≤ X := by
    unfold memberMean
    split
    · exact hX0
    · rename_i h0
      rw [div_le_iff₀ (by exact_mod_cast Nat.pos_of_ne_zero h0), mul_comm]
      exact hsum
  have hm : |memberMean N (fun r j => val (data r j)) a c j| ≤
      memberMean N (fun r j => |val (data r j)|) a c j := by
    unfold memberMean
    split
    · simp
    · rw [abs_div, Nat.abs_cast]
      apply div_le_div_of_nonneg_right _ (Nat.cast_nonneg _)
      exact Finset.abs_sum_le_sum_abs _ _
  refine le_trans ?_ hB
  calc |v| = |(v - memberMean N (fun r j => val (data r j)) a c j) +
          memberMean N (fun r j => val (data r j)) a c j| := by congr 1; ring
    _ ≤ _ := abs_add_le _ _
    _ ≤ ((P - 1) * memberMean N (fun r j => |val (data r j)|) a c j + η) +
        memberMean N (fun r j => |val (data r j)|) a c j := add_le_add h hm
    _ = P * memberMean N (fun r j => |val (data r j)|) a c j + η := by ring
    _ ≤ _ := add_le_add (mul_le_mul_of_nonneg_left ha hP) le_rfl

omit [Zero R] [Sub R] [Mul R] [Div R] [IntCast R] [NatCast R] [LT R] [LE R] in
/-- The loop of the random partition, in any arithmetic. -/
theorem randomLoop_any {data : Nat → Row R n} {N nt : Nat} (draw : S → Fin k × S) (hnt : 0 < nt)
    (hlt : N < 4294967296) (seed : S) (m : Nat) :
    ∀ (st : Nat) (c : Clusters R k n) (a : Nat → Option (Fin k)), st + m ≤ N →
    ∃ a', randomLoop draw data N nt (List.range' st m) (skip draw st seed) c a =
      .ok ((List.range' st m).foldl (fun s r => s.addMember (data r) (draw (skip draw r seed)).1) c, a') ∧
      (∀ r, st ≤ r → r < st + m → a' r = some (draw (skip draw r seed)).1) ∧ ∀ r, r < st → a' r = a r := by
  induction m with
  | zero => intro st c a _; exact ⟨a, rfl, fun r h1 h2 => by omega, fun _ _ => rfl⟩
  | succ m ih =>
    intro st c a h
    obtain ⟨a', e, h1, h2⟩ := ih (st + 1) (c.addMember (data st) (draw (skip draw st seed)).1)
      (Function.update a st (some (draw (skip draw st seed)).1)) (by omega)
    refine ⟨a', ?_, ?_, ?_⟩
    · rw [List.range'_succ]
      unfold randomLoop
      rw [thdRow_ok hnt (by omega) hlt]
      rw [← skip_add draw st 1 seed] at e
      exact e
    · intro r g1 g2
      rcases Nat.lt_or_ge st r with g | g
      · exact h1 r (by omega) (by omega)
      · obtain rfl : st = r := by omega
        rw [h2 st (by omega), Function.update_self]
    · intro r g
      rw [h2 r (by omega), Function.update_of_ne (by omega)]

/-- **Random partition on doubles.** -/
theorem random_near (hI : IeeeDouble fin val sqrt abs') {data : Nat → Row R n} {N nt : Nat} (draw : S → Fin k × S)
    (seed : S) (hn : 0 < N) (hnt : 0 < nt) (hlt : N < 4294967296)
    (hrows : ∀ r, r < N → InBox fin val (2 ^ (400 : Int)) (data r)) (a0 : Nat → Option (Fin k)) :
    ∃ c' a', random draw seed data N nt Clusters.empty a0 = .ok (c', a') ∧
      (∀ r, r < N → ∃ c, a' r = some c ∧ (outputs draw N seed)[r]? = some c) ∧
      (∀ c, InBox fin val (2 ^ (402 : Int)) (c'.means c)) ∧
      ∀ c j, |val (c'.means c j) - memberMean N (fun r j => val (data r j)) a' c j| ≤
        ((N + 1 : Nat) * 2 ^ (-52 : Int)) * memberMean N (fun r j => |val (data r j)|) a' c j + 2 ^ (-1075 : Int) := by
  obtain ⟨a', e, h1, _⟩ := randomLoop_any (data := data) draw hnt hlt seed N 0 Clusters.empty a0 (by omega)
  have ha : ∀ r, r < N → a' r = some (draw (skip draw r seed)).1 := fun r hr => h1 r (by omega) (by omega)
  rw [← List.range_eq_range'] at e
  set cl := (List.range N).foldl (fun s r => s.addMember (data r) (draw (skip draw r seed)).1)
    (Clusters.empty : Clusters R k n) with hcl
  obtain ⟨m1, m2, m3⟩ := Clusters.foldl_addMember_any data (fun r => (draw (skip draw r seed)).1) (List.range N)
    (Clusters.empty : Clusters R k n)
  rw [← hcl] at m1 m2 m3
  have hnum : ∀ c, cl.num c = (Spec.count N a' c : Int) := by
    intro c
    rw [m3, count_eq, listSum_range]
    refine (zero_add _).trans (Finset.sum_congr rfl fun r hr => ?_)
    rw [ha r (Finset.mem_range.1 hr)]
    simp
  have hpw := pow_rounds (m := N + 1) (by omega)
  have hmean : ∀ c j, fin (cl.finalizeAll.means c j) ∧
      |val (cl.finalizeAll.means c j) - memberMean N (fun r j => val (data r j)) a' c j| ≤
        ((1 + 2 ^ (-53 : Int)) ^ (N + 1) - 1) * memberMean N (fun r j => |val (data r j)|) a' c j + 2 ^ (-1075 : Int) := by
    intro c j
    have hle : memberSum N (fun r j => |val (data r j)|) a' c j ≤ N * 2 ^ (400 : Int) :=
      (memberSum_abs_le hrows a' c j).trans
        (mul_le_mul_of_nonneg_right (by exact_mod_cast count_le a' c) (p_pos _).le)
    have hM : (1 + 2 ^ (-53 : Int)) ^ N * memberSum N (fun r j => |val (data r j)|) a' c j ≤ maxDouble := by
      have hS0 : 0 ≤ memberSum N (fun r j => |val (data r j)|) a' c j := Finset.sum_nonneg fun _ _ => abs_nonneg _
      have g1 := mul_le_mul_of_nonneg_right (nat_p hlt.le) (p_pos 400).le
      have g2 := mul_le_mul (pow2 (m := N) (by omega)) (hle.trans g1) hS0 (p_pos _).le
      refine g2.trans ?_
      rw [p_mul, p_mul]
      exact (p_le (by norm_num)).trans p_le_max
    set l := (List.range N).filter fun r => (draw (skip draw r seed)).1 = c with hl
    have hsum : ∀ g : Nat → Row ℝ n, (l.map fun r => g r j).sum = memberSum N g a' c j := by
      intro g
      rw [hl, sum_filter_map, listSum_range, memberSum_eq]
      refine Finset.sum_congr rfl fun r hr => ?_
      rw [ha r (Finset.mem_range.1 hr)]
      simp
    have hlen : l.length ≤ N := (List.length_filter_le _ _).trans (List.length_range).le
    have hnear := near_seq hI.rounds.toRounds (fun r => data r j) (fun r => val (data r j)) (fun r => |val (data r j)|)
      (m0 := 0) l (fun r hr => ⟨(hrows r (List.mem_range.1 (List.mem_filter.1 hr).1) j).1, le_rfl, by simp⟩) (by
        rw [hsum fun r j => |val (data r j)|]
        refine le_trans (mul_le_mul_of_nonneg_right (pow_le_pow_right₀ ?_ (by omega)) ?_) hM
        · linarith [u_small.1]
        · exact Finset.sum_nonneg fun _ _ => abs_nonneg _)
    rw [hsum fun r j => val (data r j), hsum fun r j => |val (data r j)|] at hnear
    refine finMean_near hI.rounds.toRounds (hlt.le.trans (by norm_num)) (hnear.mono (p_pos _).le (by omega)) hM ?_
    rw [Clusters.finalizeAll_means]
    unfold Clusters.finMean
    rw [show cl.complete c = false by rw [m1]; rfl, hnum c]
    simp only [Bool.false_eq_true, if_false]
    have hs : cl.means c j = sumSeq (l.map fun r => data r j) := m2 c j
    by_cases h : 1 < Spec.count N a' c
    · rw [if_pos h, if_pos (by exact_mod_cast h), hs]
    · rw [if_neg h, if_neg (by exact_mod_cast h), hs]
  refine ⟨cl.finalizeAll, a', ?_, ?_, ?_, ?_⟩
  · unfold random
    rw [show randomLoop draw data N nt (List.range N) seed Clusters.empty a0 = _ from e]
  · intro r hr
    exact ⟨_, ha r hr, outputs_get draw N seed r hr⟩
  · intro c j
    refine ⟨(hmean c j).1, mean_box (p_pos 400).le (by positivity) hrows (hmean c j).2 ?_⟩
    have g1 := mul_le_mul_of_nonneg_right (pow2 (m := N + 1) (by omega)) (p_pos 400).le
    have g2 : (2 : ℝ) ^ (-1075 : Int) ≤ 2 ^ (401 : Int) := p_le (by norm_num)
    refine (add_le_add g1 g2).trans (le_of_eq ?_)
    rw [p_mul, show (1 : Int) + 400 = 401 by norm_num, show (402 : Int) = 1 + 401 by norm_num,
      zpow_add₀ (by norm_num) 1 401, zpow_one]
    ring
  · intro c j
    exact (hmean c j).2.trans (add_le_add (mul_le_mul_of_nonneg_right hpw.1 (memberMean_nonneg N _ _ c j)) le_rfl)

end Knor.Driver
