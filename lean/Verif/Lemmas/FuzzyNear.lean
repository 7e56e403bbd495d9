import Verif.Lemmas.MedoidNear
import Verif.Lemmas.Dist
import Verif.Lemmas.MiniBatchNearRun
import Verif.Props.Fcm
import Verif.Spec.NearFuzzy

/-! # Lemmas about fuzzy c-means on doubles -/

namespace Knor.Fcm

open Knor Knor.Par Knor.Partition Knor.Kmeans Knor.Spec Knor.NearLloyd Knor.Driver

section Any

variable {R : Type _} {k n : Nat}

/-- The powers of the memberships that the E phase computes. -/
def weightAny [Zero R] [One R] [Add R] [Div R] [NatCast R] [Pow R Nat] [LT R] [DecidableLT R] (root : R → R)
    (dist : Row R n → Row R n → Option R) (fuzz : Nat) (data : Nat → Row R n) (centers : Fin k → Row R n)
    (r : Nat) (c : Fin k) : R :=
  (entry root (dist (data r) (centers c)) / colSum fun c' => entry root (dist (data r) (centers c'))) ^ fuzz

/-- The products of one worker. -/
def prodAny [Zero R] [Add R] [Mul R] (data : Nat → Row R n) (w : Nat → Fin k → R) (l : List Nat) (c : Fin k)
    (j : Fin n) : R := sumSeq (l.map fun r => w r c * data r j)

/-- The centres that the M phase computes. -/
def centerAny [Zero R] [Add R] [Mul R] [Div R] (T N : Nat) (todo : Nat → List Nat) (data : Nat → Row R n)
    (w : Nat → Fin k → R) (c : Fin k) (j : Fin n) : R :=
  ((List.range' 1 (T - 1)).map fun t => prodAny data w (todo t) c j).foldl (· + ·) (prodAny data w (todo 0) c j) /
    sumSeq ((List.range N).map fun r => w r c)

theorem foldl_mrow_any [Zero R] [Add R] [Mul R] (data : Nat → Row R n) (um : Nat → Fin k → R) (l : List Nat)
    (a : Fin k → Row R n) (c : Fin k) (j : Fin n) :
    l.foldl (fun (a : Fin k → Row R n) r c j => a c j + um r c * data r j) a c j
      = (l.map fun r => um r c * data r j).foldl (· + ·) (a c j) := by
  induction l generalizing a with
  | nil => rfl
  | cons r l ih => simp only [List.foldl_cons, List.map_cons]; rw [ih]

theorem foldl_threads_any [Add R] (prod : Nat → Fin k → Row R n) (l : List Nat)
    (a : Fin k → Row R n) (c : Fin k) (j : Fin n) :
    l.foldl (fun (s : Fin k → Row R n) t c j => s c j + prod t c j) a c j
      = (l.map fun t => prod t c j).foldl (· + ·) (a c j) := by
  induction l generalizing a with
  | nil => rfl
  | cons r l ih => simp only [List.foldl_cons, List.map_cons]; rw [ih]

/-- One iteration in closed form in any arithmetic, for every number of threads and every interleaving. -/
theorem iteration_any [Zero R] [One R] [Add R] [Mul R] [Div R] [NatCast R] [Pow R Nat] [LT R] [DecidableLT R]
    {root : R → R}
    {dist : Row R n → Row R n → Option R} {data : Nat → Row R n} {N nt fuzz : Nat}
    {s1 s2 : List Nat} (s : FState R k n) (hn : 0 < N) (hnt : 0 < nt) (hlt : N < 4294967296)
    (hc1 : Complete (effThreads nt N) (threadRows N nt) s1)
    (hc2 : Complete (effThreads nt N) (threadRows N nt) s2) :
    ∃ s', iteration root dist data N nt fuzz s1 s2 s = .ok s' ∧ s'.prev = s.centers ∧
      (∀ r, r < N → ∀ c, s'.um r c = weightAny root dist fuzz data s.centers r c) ∧
      ∀ c j, s'.centers c j = centerAny (effThreads nt N) N (threadRows N nt) data
        (weightAny root dist fuzz data s.centers) c j := by
  have hsp := split_threadRows hn hnt hlt
  obtain ⟨p, hp, hpm, hpo, -⟩ := run_det (f := eRow root dist data s.centers)
    (g := fun r _ => .ok fun c => entry root (dist (data r) (s.centers c)))
    (h := fun _ _ _ u => u) (fun _ _ _ => rfl)
    (s0 := { mem := s.um, acc := fun _ => (), todo := threadRows N nt }) hsp hc1
    (fun r _ => ⟨_, rfl⟩)
  have hum : ∀ r, r < N → contribution fuzz N p.mem r = weightAny root dist fuzz data s.centers r := by
    intro r hr
    funext c
    unfold contribution weightAny
    rw [if_pos hr]
    have := hpm r hr
    simp only [Except.ok.injEq] at this
    rw [← this]
  obtain ⟨q, hq, hqm, hqo, hqa⟩ := run_det (f := mRow (k := k) data)
    (g := fun _ m => .ok m) (h := fun r _ m a c j => a c j + m c * data r j) (fun _ _ _ => rfl)
    (s0 := { mem := contribution fuzz N p.mem, acc := fun _ _ _ => 0, todo := threadRows N nt })
    hsp hc2 (fun r _ => ⟨_, rfl⟩)
  have hqmem : q.mem = contribution fuzz N p.mem := by
    funext r
    by_cases hr : r < N
    · have := hqm r hr
      simp only [Except.ok.injEq] at this
      exact this.symm
    · exact hqo r (by omega)
  have hprod : ∀ t c j, q.acc t c j = prodAny data (weightAny root dist fuzz data s.centers) (threadRows N nt t) c j := by
    intro t c j
    rw [hqa t]
    simp only [hqmem]
    rw [foldl_mrow_any data]
    unfold prodAny sumSeq
    congr 1
    refine List.map_congr_left fun r hr => ?_
    rw [hum r ((hsp.mem_iff r).1 ⟨t, hr⟩)]
  have hT : 0 < effThreads nt N := effThreads_pos hnt hn
  refine ⟨_, by unfold iteration; rw [hp]; simp only; rw [hq], rfl, fun r hr c => ?_, fun c j => ?_⟩
  · show q.mem r c = _
    rw [hqmem, hum r hr]
  · show (if effThreads nt N = 1 then q.acc 0 else _) c j / _ = _
    unfold centerAny
    congr 1
    · split
      · next h => rw [h]; simp [hprod]
      · next h =>
        rw [foldl_threads_any]
        obtain ⟨m, hm⟩ : ∃ m, effThreads nt N = m + 2 := ⟨effThreads nt N - 2, by omega⟩
        rw [hm]
        have : List.range' 1 (m + 2 - 1) = 1 :: List.range' 2 m := by
          rw [show m + 2 - 1 = m + 1 by omega, List.range'_succ]
        rw [this]
        simp only [List.map_cons, List.foldl_cons, Nat.add_sub_cancel, hprod]
    · rw [sumSeq, List.foldl_map, hqmem]
      refine List.foldl_ext _ _ _ fun a r hr => ?_
      rw [hum r (List.mem_range.1 hr)]

end Any

section Real

/-- Relative errors of composed approximations. -/
theorem rel_trans {x y z e e' : ℝ} (he' : 0 ≤ e') (hy : 0 ≤ y) (h1 : |x - y| ≤ e * y) (h2 : |z - x| ≤ e' * x)
    (he1 : e ≤ 1) : |z - y| ≤ (e + 2 * e') * y := by
  have a1 := abs_le.1 h1
  have hx : x ≤ 2 * y := by nlinarith [a1.2]
  have h3 : e' * x ≤ e' * (2 * y) := mul_le_mul_of_nonneg_left hx he'
  have h4 : |z - y| ≤ |z - x| + |x - y| := abs_sub_le _ _ _
  nlinarith

/-- Relative error of a quotient. -/
theorem rel_div {a b x y e1 e2 : ℝ} (hx : 0 ≤ x) (hy : 0 < y) (h1 : |a - x| ≤ e1 * x) (h2 : |b - y| ≤ e2 * y)
    (he2 : e2 ≤ 1 / 2) : 0 < b ∧ |a / b - x / y| ≤ 2 * (e1 + e2) * (x / y) := by
  have a2 := abs_le.1 h2
  have hb2 : y / 2 ≤ b := by nlinarith [a2.1]
  have hb : 0 < b := by linarith
  refine ⟨hb, ?_⟩
  have e : a / b - x / y = ((a - x) * y - (b - y) * x) / (b * y) := by field_simp; ring
  rw [e, abs_div, abs_of_pos (mul_pos hb hy), div_le_iff₀ (mul_pos hb hy)]
  have h3 : |(a - x) * y - (b - y) * x| ≤ (e1 + e2) * (x * y) := by
    refine (abs_sub _ _).trans ?_
    rw [abs_mul, abs_mul, abs_of_pos hy, abs_of_nonneg hx]
    have q1 := mul_le_mul_of_nonneg_right h1 hy.le
    have q2 := mul_le_mul_of_nonneg_right h2 hx
    nlinarith
  refine h3.trans ?_
  have h4 : 2 * (e1 + e2) * (x / y) * (b * y) = 2 * (e1 + e2) * (x * b) := by field_simp
  rw [h4]
  have h5 : 0 ≤ e1 * x := (abs_nonneg _).trans h1
  have h6 : 0 ≤ e2 * y := (abs_nonneg _).trans h2
  have h7 : 0 ≤ e2 := by
    by_contra hc
    nlinarith [not_le.1 hc]
  have h8 : 0 ≤ (e1 + e2) * x := by nlinarith
  have := mul_le_mul_of_nonneg_left hb2 h8
  nlinarith

/-- A power between 0 and 1 brings a number nearer to 1. -/
theorem rpow_near_one {t p e : ℝ} (ht : 0 < t) (hp0 : 0 ≤ p) (hp1 : p ≤ 1) (h : |t - 1| ≤ e) : |t ^ p - 1| ≤ e := by
  refine le_trans ?_ h
  rcases le_total 1 t with h1 | h1
  · have h2 : 1 ≤ t ^ p := Real.one_le_rpow h1 hp0
    have h3 : t ^ p ≤ t ^ (1 : ℝ) := Real.rpow_le_rpow_of_exponent_le h1 hp1
    rw [Real.rpow_one] at h3
    rw [abs_of_nonneg (by linarith), abs_of_nonneg (by linarith)]
    linarith
  · have h2 : t ^ p ≤ 1 := Real.rpow_le_one ht.le h1 hp0
    have h3 : t ^ (1 : ℝ) ≤ t ^ p := Real.rpow_le_rpow_of_exponent_ge ht h1 hp1
    rw [Real.rpow_one] at h3
    rw [abs_of_nonpos (by linarith), abs_of_nonpos (by linarith)]
    linarith

theorem rpow_rel {x y p e : ℝ} (hx : 0 < x) (hy : 0 < y) (hp0 : 0 ≤ p) (hp1 : p ≤ 1) (h : |x - y| ≤ e * y) :
    |x ^ p - y ^ p| ≤ e * y ^ p := by
  have hyp : 0 < y ^ p := Real.rpow_pos_of_pos hy p
  have h1 : |x / y - 1| ≤ e := by
    rw [div_sub_one hy.ne', abs_div, abs_of_pos hy, div_le_iff₀ hy]
    exact h
  have h2 := rpow_near_one (div_pos hx hy) hp0 hp1 h1
  rw [Real.div_rpow hx.le hy.le, div_sub_one hyp.ne', abs_div, abs_of_pos hyp, div_le_iff₀ hyp] at h2
  exact h2

theorem inv_exp {m : Nat} (hm : 2 ≤ m) :
    0 ≤ (1 : ℝ) / ((m : ℝ) - 1) ∧ (1 : ℝ) / ((m : ℝ) - 1) ≤ 1 ∧ (1 : ℝ) / ((m : ℝ) - 1) * m ≤ 2 := by
  have h : (2 : ℝ) ≤ m := by exact_mod_cast hm
  have h1 : (0 : ℝ) < (m : ℝ) - 1 := by linarith
  refine ⟨by positivity, ?_, ?_⟩
  · rw [div_le_one h1]; linarith
  · rw [div_mul_eq_mul_div, div_le_iff₀ h1]; linarith

/-- Bounds of weights of centres that are neither near nor far. -/
theorem exactWeight_bounds {m : Nat} (hm : 2 ≤ m) {d lo hi : ℝ} (hd : 0 < d) (hlo : lo ≤ 1) (_hlo0 : 0 < lo)
    (h1 : lo ≤ 1 / d)
    (h2 : 1 / d ≤ hi) (hhi : 1 ≤ hi) : lo ≤ exactWeight m d ∧ exactWeight m d ≤ hi := by
  obtain ⟨p0, p1, -⟩ := inv_exp hm
  unfold exactWeight
  rw [if_pos hd]
  generalize (1 : ℝ) / ((m : ℝ) - 1) = p at *
  have hq : 0 < 1 / d := by positivity
  generalize 1 / d = q at *
  rcases le_total 1 q with h | h
  · have h3 : q ^ p ≤ q ^ (1 : ℝ) := Real.rpow_le_rpow_of_exponent_le h p1
    rw [Real.rpow_one] at h3
    exact ⟨hlo.trans (Real.one_le_rpow h p0), h3.trans h2⟩
  · have h3 : q ^ (1 : ℝ) ≤ q ^ p := Real.rpow_le_rpow_of_exponent_ge hq h p1
    rw [Real.rpow_one] at h3
    exact ⟨h1.trans h3, (Real.rpow_le_one hq.le h p0).trans hhi⟩

theorem exactWeight_pos (m : Nat) (d : ℝ) : 0 < exactWeight m d := by
  unfold exactWeight
  split
  · next h => exact Real.rpow_pos_of_pos (by positivity) _
  · norm_num

theorem p_exact (m : Int) : (2 : ℝ) ^ m * 2 ^ (-m) = 1 := by
  rw [← zpow_add₀ (by norm_num), add_neg_cancel, zpow_zero]

/-- The power of half of the membership of a row in a cluster, if the row is far from all centres. -/
theorem member_pow {k m : Nat} (hm : 2 ≤ m) (hk : 0 < k) (hkm : ((2 * k : Nat) : ℝ) ^ m ≤ 2 ^ (200 : Int)) {d : Fin k → ℝ}
    (h1 : ∀ c, 2 ^ (-100 : Int) ≤ d c) (h2 : ∀ c, d c ≤ 2 ^ (121 : Int)) (c : Fin k) :
    2 ^ (-642 : Int) ≤ (exactWeight m (d c) / (∑ c', exactWeight m (d c')) / 2) ^ m := by
  obtain ⟨p0, p1, p2⟩ := inv_exp hm
  have hd : ∀ c, 0 < d c := fun c => lt_of_lt_of_le (p_pos _) (h1 c)
  have hew : ∀ c, exactWeight m (d c) = (1 / d c) ^ ((1 : ℝ) / ((m : ℝ) - 1)) := fun c => by
    unfold exactWeight; rw [if_pos (hd c)]
  simp only [hew]
  generalize (1 : ℝ) / ((m : ℝ) - 1) = p at *
  have hk' : (0 : ℝ) < k := by exact_mod_cast hk
  have hlo : ((2 : ℝ) ^ (-121 : Int)) ^ p ≤ (1 / d c) ^ p := by
    refine Real.rpow_le_rpow (p_pos _).le ?_ p0
    rw [le_div_iff₀ (hd c)]
    exact (mul_le_mul_of_nonneg_left (h2 c) (p_pos _).le).trans (le_of_eq (by rw [mul_comm]; exact p_exact 121))
  have hhi : ∀ c, (1 / d c) ^ p ≤ ((2 : ℝ) ^ (100 : Int)) ^ p := fun c => by
    refine Real.rpow_le_rpow (one_div_pos.2 (hd c)).le ?_ p0
    rw [div_le_iff₀ (hd c)]
    exact (le_of_eq (p_exact 100).symm).trans (mul_le_mul_of_nonneg_left (h1 c) (p_pos _).le)
  have hsum : ∑ c', (1 / d c') ^ p ≤ k * ((2 : ℝ) ^ (100 : Int)) ^ p := by
    refine (Finset.sum_le_card_nsmul _ _ _ fun c _ => hhi c).trans ?_
    rw [Finset.card_univ, Fintype.card_fin, nsmul_eq_mul]
  have hpos : 0 < ∑ c', (1 / d c') ^ p :=
    Finset.sum_pos (fun c _ => Real.rpow_pos_of_pos (one_div_pos.2 (hd c)) p) ⟨c, Finset.mem_univ c⟩
  have hA : (0 : ℝ) < ((2 : ℝ) ^ (100 : Int)) ^ p := Real.rpow_pos_of_pos (p_pos _) p
  have hB : (0 : ℝ) < ((2 : ℝ) ^ (-121 : Int)) ^ p := Real.rpow_pos_of_pos (p_pos _) p
  have hratio : ((2 : ℝ) ^ (-221 : Int)) ^ p / ((2 * k : Nat) : ℝ) ≤ (1 / d c) ^ p / (∑ c', (1 / d c') ^ p) / 2 := by
    have e : ((2 : ℝ) ^ (-221 : Int)) ^ p = ((2 : ℝ) ^ (-121 : Int)) ^ p / ((2 : ℝ) ^ (100 : Int)) ^ p := by
      rw [← Real.div_rpow (p_pos _).le (p_pos _).le, ← zpow_sub₀ (by norm_num)]
      norm_num
    rw [e]
    have h3 : ((2 : ℝ) ^ (-121 : Int)) ^ p / (k * ((2 : ℝ) ^ (100 : Int)) ^ p) ≤ (1 / d c) ^ p / ∑ c', (1 / d c') ^ p :=
      div_le_div₀ (Real.rpow_pos_of_pos (one_div_pos.2 (hd c)) p).le hlo hpos hsum
    refine le_trans (le_of_eq ?_) (div_le_div_of_nonneg_right h3 (by norm_num : (0 : ℝ) ≤ 2))
    push_cast
    rw [div_div, div_div]
    congr 1
    ring
  have hP : (0 : ℝ) < ((2 : ℝ) ^ (-221 : Int)) ^ p := Real.rpow_pos_of_pos (p_pos _) p
  refine le_trans ?_ (pow_le_pow_left₀ (by positivity) hratio m)
  rw [div_pow, le_div_iff₀ (by positivity)]
  have h4 : (2 : ℝ) ^ (-442 : Int) ≤ (((2 : ℝ) ^ (-221 : Int)) ^ p) ^ m := by
    rw [← Real.rpow_natCast, ← Real.rpow_mul (p_pos _).le]
    have : (2 : ℝ) ^ (-442 : Int) = ((2 : ℝ) ^ (-221 : Int)) ^ (2 : ℝ) := by
      rw [show (2 : ℝ) = ((2 : Nat) : ℝ) by norm_num, Real.rpow_natCast, ← zpow_natCast, ← zpow_mul]
      norm_num
    rw [this]
    exact Real.rpow_le_rpow_of_exponent_ge (p_pos _) (zpow_le_one_of_nonpos₀ (by norm_num) (by norm_num)) p2
  refine (mul_le_mul_of_nonneg_left hkm (p_pos _).le).trans ?_
  rw [← zpow_add₀ (by norm_num)]
  exact h4

end Real

section Double

variable {R : Type _} {k n : Nat} [Zero R] [One R] [Add R] [Sub R] [Mul R] [Div R] [IntCast R] [NatCast R] [LT R]
  [LE R] {fin : R → Prop} {val : R → ℝ} {sqrt abs' : R → R}

theorem le_max_of {x : ℝ} {e : Int} (h : x ≤ 2 ^ e) (he : e ≤ 1023) : x ≤ maxDouble :=
  (h.trans (p_le he)).trans p_le_max

/-- What a computed distance must satisfy. -/
structure GoodFcmDist (fin : R → Prop) (val : R → ℝ) (d : R) : Prop where
  fin : fin d
  nonneg : 0 ≤ val d
  tiny : 0 < val d → 2 ^ (-537 : Int) ≤ val d
  big : val d ≤ 2 ^ (121 : Int)

omit [Zero R] [One R] [Add R] [Sub R] [Mul R] [Div R] [IntCast R] [NatCast R] [LT R] [LE R] in
theorem weight_bounds {m : Nat} (hm : 2 ≤ m) {d : R} (hd : GoodFcmDist fin val d) :
    2 ^ (-121 : Int) ≤ exactWeight m (val d) ∧ exactWeight m (val d) ≤ 2 ^ (537 : Int) := by
  by_cases h : 0 < val d
  · refine exactWeight_bounds (lo := 2 ^ (-121 : Int)) (hi := 2 ^ (537 : Int)) hm h (zpow_le_one_of_nonpos₀ (by norm_num) (by norm_num)) (p_pos _) ?_ ?_
      (one_le_zpow₀ (by norm_num) (by norm_num))
    · rw [le_div_iff₀ h]
      exact (mul_le_mul_of_nonneg_left hd.big (p_pos _).le).trans (le_of_eq (by rw [mul_comm]; exact p_exact 121))
    · rw [div_le_iff₀ h]
      exact (le_of_eq (p_exact 537).symm).trans (mul_le_mul_of_nonneg_left (hd.tiny h) (p_pos _).le)
  · unfold exactWeight
    rw [if_neg h]
    constructor
    · refine (p_le (show (-121 : Int) ≤ -60 by norm_num)).trans ?_
      norm_num
    · refine le_trans ?_ (p_le (show (0 : Int) ≤ 537 by norm_num))
      norm_num

theorem two_rel : (2 : ℝ) ^ (-53 : Int) + 2 * 2 ^ (-51 : Int) ≤ 8 * 2 ^ (-52 : Int) := by norm_num

theorem eps_isDouble : IsDouble ((100000000000000000 : Nat) : ℝ) :=
  ⟨762939453125, 17, by norm_num, by norm_num, by norm_num, by norm_num⟩

theorem entry_double [DecidableLT R] (hI : IeeeDouble fin val sqrt abs') (h1 : fin 1 ∧ val (1 : R) = 1) {root : R → R}
    {m : Nat} (hm : 2 ≤ m) (hroot : RootRounds fin val root m) {d : R} (hd : GoodFcmDist fin val d) :
    fin (entry root (some d)) ∧
      |val (entry root (some d)) - exactWeight m (val d)| ≤ 8 * 2 ^ (-52 : Int) * exactWeight m (val d) := by
  obtain ⟨b1, b2⟩ := weight_bounds hm hd
  have hlt : (0 : R) < d ↔ 0 < val d := by rw [hI.lt 0 d hI.zero.1 hd.fin, hI.zero.2]
  by_cases h : 0 < val d
  · have e : entry root (some d) = root (1 / d) := by unfold entry; simp only; rw [if_pos (hlt.2 h)]
    rw [e]
    have q1 : (2 : ℝ) ^ (-121 : Int) ≤ 1 / val d := by
      rw [le_div_iff₀ h]
      exact (mul_le_mul_of_nonneg_left hd.big (p_pos _).le).trans (le_of_eq (by rw [mul_comm]; exact p_exact 121))
    have q2 : 1 / val d ≤ (2 : ℝ) ^ (537 : Int) := by
      rw [div_le_iff₀ h]
      exact (le_of_eq (p_exact 537).symm).trans (mul_le_mul_of_nonneg_left (hd.tiny h) (p_pos _).le)
    have q0 : 0 < 1 / val d := one_div_pos.2 h
    have hM : |1 / val d| ≤ maxDouble := by rw [abs_of_pos q0]; exact le_max_of q2 (by norm_num)
    obtain ⟨f1, n1⟩ := hI.div 1 d h1.1 hd.fin h.ne' (by rw [h1.2]; exact hM)
    rw [h1.2] at n1
    have r1 := nearest_rel hM n1 (fun hc => by
      rw [abs_of_pos q0] at hc
      exact absurd (q1.trans hc.le) (not_le.2 (zpow_lt_zpow_right₀ (by norm_num) (by norm_num))))
    rw [abs_of_pos q0] at r1
    have u53 : (2 : ℝ) ^ (-53 : Int) ≤ 1 / 2 := by norm_num
    have a1 := abs_le.1 r1
    have hq : (2 : ℝ) ^ (-53 : Int) * (1 / val d) ≤ 1 / 2 * (1 / val d) := mul_le_mul_of_nonneg_right u53 q0.le
    have lo : (2 : ℝ) ^ (-122 : Int) ≤ val (1 / d) := by
      have : (2 : ℝ) ^ (-122 : Int) = 1 / 2 * 2 ^ (-121 : Int) := by
        rw [show (-122 : Int) = -1 + -121 by norm_num, zpow_add₀ (by norm_num)]; norm_num
      rw [this]
      have h2 := mul_le_mul_of_nonneg_left q1 (by norm_num : (0 : ℝ) ≤ 1 / 2)
      generalize (1 : ℝ) / 2 * 2 ^ (-121 : Int) = z at *
      linarith [a1.1]
    have hi : val (1 / d) ≤ (2 : ℝ) ^ (538 : Int) := by
      have : (2 : ℝ) ^ (538 : Int) = 2 * 2 ^ (537 : Int) := by
        rw [show (538 : Int) = 1 + 537 by norm_num, zpow_add₀ (by norm_num)]; norm_num
      rw [this]
      have h3 := a1.2
      clear a1 r1 lo u53 b1 b2 q1 this
      clear hM n1 e
      generalize (2 : ℝ) ^ (537 : Int) = z at *
      generalize (2 : ℝ) ^ (-53 : Int) * (1 / val d) = z' at *
      generalize 1 / val d = q at *
      linarith
    obtain ⟨f2, r2⟩ := hroot _ f1 lo hi
    have hv0 : 0 < val (1 / d) := lt_of_lt_of_le (p_pos _) lo
    obtain ⟨p0, p1, -⟩ := inv_exp hm
    have r3 := rpow_rel hv0 q0 p0 p1 r1
    have hew : exactWeight m (val d) = (1 / val d) ^ ((1 : ℝ) / ((m : ℝ) - 1)) := by
      unfold exactWeight; rw [if_pos h]
    rw [← hew] at r3
    have hw0 := exactWeight_pos m (val d)
    refine ⟨f2, (rel_trans (p_pos _).le hw0.le r3 r2 (u53.trans (by norm_num))).trans
      (mul_le_mul_of_nonneg_right two_rel hw0.le)⟩
  · have e : entry root (some d) = ((22 : Nat) : R) / ((100000000000000000 : Nat) : R) := by
      unfold entry; simp only; rw [if_neg (fun hh => h (hlt.1 hh))]; rfl
    rw [e]
    have hew : exactWeight m (val d) = 22 / 10 ^ 17 := by unfold exactWeight; rw [if_neg h]
    rw [hew]
    have hmx : (100000000000000000 : ℝ) ≤ maxDouble := le_max_of (e := 60) (by norm_num) (by norm_num)
    obtain ⟨f22, n22⟩ := hI.nat 22 (by rw [abs_of_nonneg (by positivity)]; push_cast; linarith)
    have v22 : val ((22 : Nat) : R) = 22 := by
      have := nearest_of_double n22 (nat_isDouble (by norm_num))
      rw [this]; norm_num
    obtain ⟨f17, n17⟩ := hI.nat 100000000000000000 (by rw [abs_of_nonneg (by positivity)]; push_cast; linarith)
    have v17 : val ((100000000000000000 : Nat) : R) = 10 ^ 17 := by
      rw [nearest_of_double n17 eps_isDouble]; norm_num
    have hM : |(22 : ℝ) / 10 ^ 17| ≤ maxDouble := by
      rw [abs_of_nonneg (by norm_num)]
      refine le_trans ?_ hmx
      norm_num
    obtain ⟨f, nn⟩ := hI.div _ _ f22 f17 (by rw [v17]; norm_num) (by rw [v22, v17]; exact hM)
    rw [v22, v17] at nn
    have r := nearest_rel hM nn (fun hc => by
      rw [abs_of_nonneg (by norm_num)] at hc
      exact absurd ((p_le (show (-1022 : Int) ≤ -60 by norm_num)).trans (by norm_num)) (not_le.2 hc))
    rw [abs_of_nonneg (by norm_num : (0 : ℝ) ≤ 22 / 10 ^ 17)] at r
    refine ⟨f, r.trans (mul_le_mul_of_nonneg_right ?_ (by norm_num))⟩
    norm_num

theorem nat32 {N : Nat} (h : N ≤ 4294967296) : (N : ℝ) ≤ 2 ^ (32 : Int) := by
  have : (N : ℝ) ≤ ((2 ^ 32 : Nat) : ℝ) := by exact_mod_cast (by omega : N ≤ 2 ^ 32)
  exact this.trans (le_of_eq (by norm_num))

omit [Zero R] [One R] [Add R] [Sub R] [Mul R] [Div R] [IntCast R] [NatCast R] [LT R] [LE R] in
theorem sum_finRange (f : Fin k → ℝ) : ∑ c, f c = ((List.finRange k).map f).sum := by
  rw [← List.sum_ofFn, List.ofFn_eq_map]

omit [One R] in
theorem colSum_double (hI : IeeeDouble fin val sqrt abs') (hk : 0 < k) (hk' : k ≤ 4294967296) {f : Fin k → R}
    {x : Fin k → ℝ} (hf : ∀ c, fin (f c) ∧ |val (f c) - x c| ≤ 8 * 2 ^ (-52 : Int) * x c)
    (hx : ∀ c, 0 < x c ∧ x c ≤ 2 ^ (537 : Int)) :
    fin (colSum f) ∧ |val (colSum f) - ∑ c, x c| ≤ ((2 * k + 8 : Nat) : ℝ) * 2 ^ (-52 : Int) * ∑ c, x c := by
  have hX0 : 0 ≤ ∑ c, x c := Finset.sum_nonneg fun c _ => (hx c).1.le
  have hX : ∑ c, x c ≤ 2 ^ (569 : Int) := by
    refine (Finset.sum_le_card_nsmul _ _ _ fun c _ => (hx c).2).trans ?_
    rw [Finset.card_univ, Fintype.card_fin, nsmul_eq_mul]
    refine (mul_le_mul_of_nonneg_right (nat32 hk') (p_pos _).le).trans (le_of_eq ?_)
    rw [← zpow_add₀ (by norm_num)]; norm_num
  have h8 : (8 : ℝ) * 2 ^ (-52 : Int) ≤ 1 / 2 := by norm_num
  have hV : |∑ c, val (f c) - ∑ c, x c| ≤ 8 * 2 ^ (-52 : Int) * ∑ c, x c := by
    rw [← Finset.sum_sub_distrib, Finset.mul_sum]
    exact (Finset.abs_sum_le_sum_abs _ _).trans (Finset.sum_le_sum fun c _ => (hf c).2)
  have hf0 : ∀ c, 0 ≤ val (f c) := fun c => by
    have := abs_le.1 (hf c).2
    have h2 := mul_le_mul_of_nonneg_right h8 (hx c).1.le
    have := (hx c).1
    generalize (8 : ℝ) * 2 ^ (-52 : Int) * x c = z at *
    linarith
  have hV2 : ∑ c, val (f c) ≤ 2 ^ (570 : Int) := by
    have := abs_le.1 hV
    have h2 := mul_le_mul_of_nonneg_right h8 hX0
    rw [show (570 : Int) = 1 + 569 by norm_num, zpow_add₀ (by norm_num), zpow_one]
    generalize (8 : ℝ) * 2 ^ (-52 : Int) * ∑ c, x c = z at *
    generalize (2 : ℝ) ^ (569 : Int) = z' at *
    linarith
  have hnear : Near fin val (2 ^ (-53 : Int)) k (colSum f) (∑ c, val (f c)) (∑ c, val (f c)) := by
    rw [sum_finRange fun c => val (f c)]
    rw [sum_finRange fun c => val (f c)] at hV2
    have hlen := List.length_finRange (n := k)
    unfold colSum
    revert hV2 hlen
    cases List.finRange k with
    | nil => intro _ hl; simp at hl; omega
    | cons c0 l =>
      intro hV2 hlen
      have hl' : l.length + 1 = k := by simpa using hlen
      have key := near_foldl hI.rounds.toRounds f (fun c => val (f c)) (fun c => val (f c)) (m0 := 0) l 0 (f c0)
        (val (f c0)) (val (f c0)) le_rfl ⟨(hf c0).1, by rw [abs_of_nonneg (hf0 c0)], by simp⟩
        (fun c _ => ⟨(hf c).1, by rw [abs_of_nonneg (hf0 c)], by simp⟩) (by
          have h2 := (pow_rounds (m := 0 + l.length) (by omega)).2
          have h3 : 0 ≤ val (f c0) + (l.map fun c => val (f c)).sum := by
            refine add_nonneg (hf0 c0) (List.sum_nonneg fun z hz => ?_)
            obtain ⟨c, _, rfl⟩ := List.mem_map.1 hz
            exact hf0 c
          refine (mul_le_mul_of_nonneg_right h2 h3).trans ?_
          rw [List.map_cons, List.sum_cons] at hV2
          refine (mul_le_mul_of_nonneg_left hV2 (by norm_num)).trans (le_max_of (e := 571) (le_of_eq ?_) (by norm_num))
          rw [show (571 : Int) = 1 + 570 by norm_num, zpow_add₀ (by norm_num) 1, zpow_one])
      rw [List.foldl_map] at key
      rw [List.map_cons, List.sum_cons]
      exact key.mono (p_pos _).le (by omega)
  refine ⟨hnear.fin, ?_⟩
  have hk1 := (pow_rounds (m := k) (by omega)).1
  have hV0 : 0 ≤ ∑ c, val (f c) := Finset.sum_nonneg fun c _ => hf0 c
  have h5 := hnear.err.trans (mul_le_mul_of_nonneg_right hk1 hV0)
  refine (rel_trans (by positivity) hX0 hV h5 (h8.trans (by norm_num))).trans (le_of_eq ?_)
  push_cast
  ring

end Double

section Double

variable {R : Type _} {k n : Nat} [Zero R] [One R] [Add R] [Sub R] [Mul R] [Div R] [IntCast R] [NatCast R] [LT R]
  [LE R] {fin : R → Prop} {val : R → ℝ} {sqrt abs' : R → R}

/-- A weight: the computed membership `v`, and its power. -/
structure WeightOk (fin : R → Prop) (val : R → ℝ) (k m : Nat) (x v : ℝ) (w : R) : Prop where
  near : |v - x| ≤ ((4 * k + 33 : Nat) : ℝ) * 2 ^ (-52 : Int) * x
  half : x / 2 ≤ v
  two : v ≤ 2
  fin : fin w
  nonneg : 0 ≤ val w
  pow : |val w - v ^ m| ≤ 2 ^ (-51 : Int) * v ^ m + 2 ^ (-1074 : Int)

theorem weight_double [DecidableLT R] [Pow R Nat] (hI : IeeeDouble fin val sqrt abs') (h1 : fin 1 ∧ val (1 : R) = 1)
    {root : R → R} {m : Nat} (hm : 2 ≤ m) (hroot : RootRounds fin val root m) (hpow : PowRounds fin val m)
    (hk : 0 < k) (hk' : k ≤ 4294967296) {d : Fin k → R} (hd : ∀ c, GoodFcmDist fin val (d c)) (c : Fin k) :
    ∃ v : ℝ, WeightOk fin val k m (exactWeight m (val (d c)) / ∑ c', exactWeight m (val (d c'))) v
      ((entry root (some (d c)) / colSum fun c' => entry root (some (d c'))) ^ m) := by
  have he := fun c => entry_double hI h1 hm hroot (hd c)
  have hb := fun c => weight_bounds hm (hd c)
  have hp := fun c => exactWeight_pos m (val (d c))
  obtain ⟨fc, nc⟩ := colSum_double hI hk hk' he fun c => ⟨hp c, (hb c).2⟩
  have hS0 : 0 < ∑ c', exactWeight m (val (d c')) := Finset.sum_pos (fun c _ => hp c) ⟨c, Finset.mem_univ c⟩
  have hS : ∑ c', exactWeight m (val (d c')) ≤ 2 ^ (569 : Int) := by
    refine (Finset.sum_le_card_nsmul _ _ _ fun c _ => (hb c).2).trans ?_
    rw [Finset.card_univ, Fintype.card_fin, nsmul_eq_mul]
    refine (mul_le_mul_of_nonneg_right (nat32 hk') (p_pos _).le).trans (le_of_eq ?_)
    rw [← zpow_add₀ (by norm_num)]; norm_num
  have hle1 : exactWeight m (val (d c)) / ∑ c', exactWeight m (val (d c')) ≤ 1 := by
    rw [div_le_one hS0]
    exact Finset.single_le_sum (f := fun c => exactWeight m (val (d c))) (fun c _ => (hp c).le) (Finset.mem_univ c)
  have hx0 : 0 < exactWeight m (val (d c)) / ∑ c', exactWeight m (val (d c')) := div_pos (hp c) hS0
  have hxlo : (2 : ℝ) ^ (-690 : Int) ≤ exactWeight m (val (d c)) / ∑ c', exactWeight m (val (d c')) := by
    rw [show (-690 : Int) = -121 - 569 by norm_num, zpow_sub₀ (by norm_num)]
    exact div_le_div₀ (hp c).le (hb c).1 hS0 hS
  have hk2 : ((2 * k + 8 : Nat) : ℝ) * 2 ^ (-52 : Int) ≤ 1 / 2 := by
    have h2 := Medoid.p52_le (m := 2 * (2 * k + 8)) (by omega)
    have e : ((2 * (2 * k + 8) : Nat) : ℝ) = 2 * ((2 * k + 8 : Nat) : ℝ) := by push_cast; ring
    rw [e] at h2
    generalize (2 : ℝ) ^ (-52 : Int) = ε at *
    linarith
  obtain ⟨hpos, hq⟩ := rel_div (hp c).le hS0 (he c).2 nc hk2
  have hk3 : ((4 * k + 33 : Nat) : ℝ) * 2 ^ (-52 : Int) ≤ 1 / 2 := by
    have h2 := Medoid.p52_le (m := 2 * (4 * k + 33)) (by omega)
    have e : ((2 * (4 * k + 33) : Nat) : ℝ) = 2 * ((4 * k + 33 : Nat) : ℝ) := by push_cast; ring
    rw [e] at h2
    generalize (2 : ℝ) ^ (-52 : Int) = ε at *
    linarith
  have e2 : 2 * (8 * 2 ^ (-52 : Int) + ((2 * k + 8 : Nat) : ℝ) * 2 ^ (-52 : Int)) =
      ((4 * k + 32 : Nat) : ℝ) * 2 ^ (-52 : Int) := by push_cast; ring
  rw [e2] at hq
  have e3 : ((4 * k + 33 : Nat) : ℝ) * 2 ^ (-52 : Int) =
      ((4 * k + 32 : Nat) : ℝ) * 2 ^ (-52 : Int) + 2 * 2 ^ (-53 : Int) := by
    rw [show (-53 : Int) = -1 + -52 by norm_num, zpow_add₀ (by norm_num)]
    push_cast
    rw [zpow_neg_one]
    ring
  have hk4 : ((4 * k + 32 : Nat) : ℝ) * 2 ^ (-52 : Int) ≤ 1 / 2 :=
    (mul_le_mul_of_nonneg_right (by exact_mod_cast (by omega : 4 * k + 32 ≤ 4 * k + 33)) (p_pos _).le).trans hk3
  set x := exactWeight m (val (d c)) / ∑ c', exactWeight m (val (d c')) with hx
  set a := val (entry root (some (d c))) / val (colSum fun c' => entry root (some (d c'))) with ha
  have hm1 := mul_le_mul_of_nonneg_right hk4 hx0.le
  have a1 := abs_le.1 hq
  have halo : (2 : ℝ) ^ (-691 : Int) ≤ a := by
    have : (2 : ℝ) ^ (-691 : Int) = 1 / 2 * 2 ^ (-690 : Int) := by
      rw [show (-691 : Int) = -1 + -690 by norm_num, zpow_add₀ (by norm_num)]; norm_num
    rw [this]
    have := mul_le_mul_of_nonneg_left hxlo (by norm_num : (0 : ℝ) ≤ 1 / 2)
    generalize (1 : ℝ) / 2 * 2 ^ (-690 : Int) = z at *
    generalize ((4 * k + 32 : Nat) : ℝ) * 2 ^ (-52 : Int) * x = z' at *
    linarith [a1.1]
  have ha0 : 0 < a := lt_of_lt_of_le (p_pos _) halo
  have ha2 : a ≤ 2 := by
    generalize ((4 * k + 32 : Nat) : ℝ) * 2 ^ (-52 : Int) * x = z' at *
    linarith [a1.2]
  have hM : |a| ≤ maxDouble := by
    rw [abs_of_pos ha0]
    exact le_max_of (e := 1) (by rw [zpow_one]; exact ha2) (by norm_num)
  obtain ⟨fd, nd⟩ := hI.div _ _ (he c).1 fc hpos.ne' hM
  have r := nearest_rel hM nd (fun hc => by
    rw [abs_of_pos ha0] at hc
    exact absurd (halo.trans hc.le) (not_le.2 (zpow_lt_zpow_right₀ (by norm_num) (by norm_num))))
  have r' : |val (entry root (some (d c)) / colSum fun c' => entry root (some (d c'))) - a| ≤ 2 ^ (-53 : Int) * a := by
    rw [abs_of_pos ha0] at r; exact r
  have key := rel_trans (p_pos _).le hx0.le hq r' (hk4.trans (by norm_num))
  rw [← e3] at key
  have b1 := abs_le.1 key
  have hm2 := mul_le_mul_of_nonneg_right hk3 hx0.le
  have hhalf : x / 2 ≤ val (entry root (some (d c)) / colSum fun c' => entry root (some (d c'))) := by
    generalize ((4 * k + 33 : Nat) : ℝ) * 2 ^ (-52 : Int) * x = z' at *
    linarith [b1.1]
  have htwo : val (entry root (some (d c)) / colSum fun c' => entry root (some (d c'))) ≤ 2 := by
    generalize ((4 * k + 33 : Nat) : ℝ) * 2 ^ (-52 : Int) * x = z' at *
    linarith [b1.2]
  obtain ⟨g1, g2, g3⟩ := hpow _ fd (by linarith) htwo
  exact ⟨_, key, hhalf, htwo, g1, g2, g3⟩

theorem quot_err {P X S' S A α β : ℝ} (hS : 0 < S) (hX : |X| ≤ A) (h1 : |P - X| ≤ α) (h2 : |S' - S| ≤ β * S)
    (hβ : β ≤ 1 / 2) : 0 < S' ∧ |P / S' - X / S| ≤ 2 * ((α + β * A) / S) := by
  have a2 := abs_le.1 h2
  have hb := mul_le_mul_of_nonneg_right hβ hS.le
  have hS2 : S / 2 ≤ S' := by linarith [a2.1]
  have hS' : 0 < S' := by linarith
  refine ⟨hS', ?_⟩
  have hβ0 : 0 ≤ β := by
    have := (abs_nonneg _).trans h2
    by_contra hc
    nlinarith [not_le.1 hc]
  have hα : 0 ≤ α := (abs_nonneg _).trans h1
  have hA : 0 ≤ A := (abs_nonneg _).trans hX
  have e : P / S' - X / S = ((P - X) * S - (S' - S) * X) / (S' * S) := by field_simp; ring
  rw [e, abs_div, abs_of_pos (mul_pos hS' hS), div_le_iff₀ (mul_pos hS' hS)]
  have h3 : |(P - X) * S - (S' - S) * X| ≤ (α + β * A) * S := by
    refine (abs_sub _ _).trans ?_
    rw [abs_mul, abs_mul, abs_of_pos hS]
    have q1 := mul_le_mul_of_nonneg_right h1 hS.le
    have q2 := mul_le_mul h2 hX (abs_nonneg _) (by positivity)
    nlinarith
  refine h3.trans ?_
  have h4 : 2 * ((α + β * A) / S) * (S' * S) = (α + β * A) * (2 * S') := by field_simp
  rw [h4]
  exact mul_le_mul_of_nonneg_left (by linarith) (by positivity)

end Double

section Double

variable {R : Type _} {k n : Nat} [Zero R] [One R] [Add R] [Sub R] [Mul R] [Div R] [IntCast R] [NatCast R] [LT R]
  [LE R] {fin : R → Prop} {val : R → ℝ} {sqrt abs' : R → R}

omit [One R] in
/-- The sum of a column over all workers. -/
theorem merge_near (hI : IeeeDouble fin val sqrt abs') {N T L : Nat} {todo : Nat → List Nat}
    (hsp : Split N T todo) (hT : 0 < T) (hL : ∀ t, (todo t).length ≤ L) (hLT : L + T ≤ N + 1) (hlt : N < 4294967296)
    (g : Nat → R) (hg : ∀ r, r < N → fin (g r)) (hM : ∑ r ∈ Finset.range N, |val (g r)| ≤ 2 ^ (400 : Int)) :
    Near fin val (2 ^ (-53 : Int)) N
      (((List.range' 1 (T - 1)).map fun t => sumSeq ((todo t).map g)).foldl (· + ·) (sumSeq ((todo 0).map g)))
      (∑ r ∈ Finset.range N, val (g r)) (∑ r ∈ Finset.range N, |val (g r)|) := by
  have hR := hI.rounds.toRounds
  have hu : (0 : ℝ) ≤ 2 ^ (-53 : Int) := (p_pos _).le
  set A : Nat → ℝ := fun t => ((todo t).map fun r => |val (g r)|).sum with hA
  have hA0 : ∀ t, 0 ≤ A t := by
    intro t
    apply List.sum_nonneg
    intro z hz
    obtain ⟨r, _, rfl⟩ := List.mem_map.1 hz
    exact abs_nonneg _
  have hAsum : ((List.range T).map A).sum = ∑ r ∈ Finset.range N, |val (g r)| := hsp.sum fun r => |val (g r)|
  have hsplit : List.range T = 0 :: List.range' 1 (T - 1) := by
    obtain ⟨m, rfl⟩ : ∃ m, T = m + 1 := ⟨T - 1, by omega⟩
    rw [List.range_eq_range', List.range'_succ]
    rfl
  have hbig : ∀ m : Nat, m ≤ N → ((1 : ℝ) + 2 ^ (-53 : Int)) ^ m * ∑ r ∈ Finset.range N, |val (g r)| ≤ maxDouble := by
    intro m hm
    have h2 := (pow_rounds (m := m) (by omega)).2
    refine (mul_le_mul h2 hM (Finset.sum_nonneg fun r _ => abs_nonneg _) (by norm_num)).trans
      (le_max_of (e := 401) (le_of_eq ?_) (by norm_num))
    rw [show (401 : Int) = 1 + 400 by norm_num, zpow_add₀ (by norm_num) 1, zpow_one]
  have hAle : ∀ t ∈ List.range T, A t ≤ ∑ r ∈ Finset.range N, |val (g r)| := by
    intro t ht
    rw [← hAsum]
    apply List.single_le_sum
    · intro z hz
      obtain ⟨t', _, rfl⟩ := List.mem_map.1 hz
      exact hA0 t'
    · exact List.mem_map.2 ⟨t, ht, rfl⟩
  have hloc : ∀ t ∈ List.range T, Near fin val (2 ^ (-53 : Int)) L (sumSeq ((todo t).map g))
      ((todo t).map fun r => val (g r)).sum (A t) := by
    intro t ht
    have h0 : 0 < T := hT
    have hlen := hL t
    have := near_seq hR g (fun r => val (g r)) (fun r => |val (g r)|) (m0 := 0) (todo t)
      (fun r hr => ⟨hg r ((hsp.mem_iff r).1 ⟨t, hr⟩), le_rfl, by simp⟩)
      ((mul_le_mul_of_nonneg_left (hAle t ht) (by positivity)).trans (hbig _ (by omega)))
    exact this.mono hu (by omega)
  have h0 := hloc 0 (List.mem_range.2 hT)
  have hcomb : A 0 + ((List.range' 1 (T - 1)).map A).sum = ∑ r ∈ Finset.range N, |val (g r)| := by
    rw [← hAsum, hsplit, List.map_cons, List.sum_cons]
  have hcomb' : ((todo 0).map fun r => val (g r)).sum +
      ((List.range' 1 (T - 1)).map fun t => ((todo t).map fun r => val (g r)).sum).sum =
      ∑ r ∈ Finset.range N, val (g r) := by
    rw [← hsp.sum fun r => val (g r), hsplit, List.map_cons, List.sum_cons]
  have key := near_foldl hR (fun t => sumSeq ((todo t).map g)) (fun t => ((todo t).map fun r => val (g r)).sum) A
    (m0 := L) (List.range' 1 (T - 1)) L _ _ _ le_rfl h0 (fun t ht => hloc t (by rw [hsplit]; exact List.mem_cons_of_mem _ ht))
    (by
      rw [hcomb, List.length_range']
      exact hbig _ (by omega))
  rw [hcomb, hcomb', List.length_range'] at key
  exact key.mono hu (by omega)

omit [One R] in
theorem center_double (hI : IeeeDouble fin val sqrt abs') {N T L : Nat} {todo : Nat → List Nat}
    (hsp : Split N T todo) (hT : 0 < T) (hL : ∀ t, (todo t).length ≤ L) (hLT : L + T ≤ N + 1) (hlt : N < 4294967296)
    {data : Nat → Row R n} (hx : ∀ r, r < N → InBox fin val (2 ^ (100 : Int)) (data r)) {w : Nat → Fin k → R} {c : Fin k}
    (hw : ∀ r, r < N → fin (w r c) ∧ 0 ≤ val (w r c) ∧ val (w r c) ≤ 2 ^ (202 : Int))
    (hS : 2 ^ (-644 : Int) ≤ ∑ r ∈ Finset.range N, val (w r c)) (j : Fin n) :
    fin (centerAny T N todo data w c j) ∧
      |val (centerAny T N todo data w c j) -
          (∑ r ∈ Finset.range N, val (w r c) * val (data r j)) / ∑ r ∈ Finset.range N, val (w r c)| ≤
        ((6 * N + 14 : Nat) : ℝ) * 2 ^ (-52 : Int) *
          ((∑ r ∈ Finset.range N, val (w r c) * |val (data r j)|) / ∑ r ∈ Finset.range N, val (w r c)) +
          2 ^ (-390 : Int) := by
  set S := ∑ r ∈ Finset.range N, val (w r c) with hSd
  set A := ∑ r ∈ Finset.range N, val (w r c) * |val (data r j)| with hAd
  set X := ∑ r ∈ Finset.range N, val (w r c) * val (data r j) with hXd
  have hS0 : 0 < S := lt_of_lt_of_le (p_pos _) hS
  have hN := nat32 hlt.le
  have hA0 : 0 ≤ A := Finset.sum_nonneg fun r hr => mul_nonneg (hw r (Finset.mem_range.1 hr)).2.1 (abs_nonneg _)
  have hXA : |X| ≤ A := by
    refine (Finset.abs_sum_le_sum_abs _ _).trans (le_of_eq (Finset.sum_congr rfl fun r hr => ?_))
    rw [abs_mul, abs_of_nonneg (hw r (Finset.mem_range.1 hr)).2.1]
  have hAS : A ≤ 2 ^ (100 : Int) * S := by
    rw [hSd, Finset.mul_sum]
    refine Finset.sum_le_sum fun r hr => ?_
    rw [mul_comm]
    exact mul_le_mul_of_nonneg_right (hx r (Finset.mem_range.1 hr) j).2 (hw r (Finset.mem_range.1 hr)).2.1
  have hS2 : S ≤ 2 ^ (234 : Int) := by
    refine (Finset.sum_le_card_nsmul _ _ _ fun r hr => (hw r (Finset.mem_range.1 hr)).2.2).trans ?_
    rw [Finset.card_range, nsmul_eq_mul]
    refine (mul_le_mul_of_nonneg_right hN (p_pos _).le).trans (le_of_eq ?_)
    rw [← zpow_add₀ (by norm_num)]; norm_num
  have hA2 : A ≤ 2 ^ (334 : Int) := by
    refine hAS.trans ((mul_le_mul_of_nonneg_left hS2 (p_pos _).le).trans (le_of_eq ?_))
    rw [← zpow_add₀ (by norm_num)]; norm_num
  -- the products
  have hprod : ∀ r, r < N → fin (w r c * data r j) ∧
      |val (w r c * data r j) - val (w r c) * val (data r j)| ≤
        2 ^ (-53 : Int) * (val (w r c) * |val (data r j)|) + 2 ^ (-1075 : Int) := by
    intro r hr
    obtain ⟨f1, q1, q2⟩ := hw r hr
    obtain ⟨f2, q3⟩ := hx r hr j
    have e : |val (w r c) * val (data r j)| = val (w r c) * |val (data r j)| := by rw [abs_mul, abs_of_nonneg q1]
    have hM : |val (w r c) * val (data r j)| ≤ maxDouble := by
      rw [e]
      refine (mul_le_mul q2 q3 (abs_nonneg _) (p_pos _).le).trans (le_max_of (e := 302) (le_of_eq ?_) (by norm_num))
      rw [← zpow_add₀ (by norm_num)]; norm_num
    obtain ⟨f3, q4⟩ := hI.mul _ _ f1 f2 hM
    have := nearest_err hM q4
    rw [e] at this
    exact ⟨f3, this⟩
  have hη : (N : ℝ) * 2 ^ (-1075 : Int) ≤ 2 ^ (-1043 : Int) := by
    refine (mul_le_mul_of_nonneg_right hN (p_pos _).le).trans (le_of_eq ?_)
    rw [← zpow_add₀ (by norm_num)]; norm_num
  have hsumerr : ∑ r ∈ Finset.range N, |val (w r c * data r j) - val (w r c) * val (data r j)| ≤
      2 ^ (-53 : Int) * A + N * 2 ^ (-1075 : Int) := by
    refine (Finset.sum_le_sum fun r hr => (hprod r (Finset.mem_range.1 hr)).2).trans (le_of_eq ?_)
    rw [Finset.sum_add_distrib, ← Finset.mul_sum, Finset.sum_const, Finset.card_range, nsmul_eq_mul]
  have hGX : |∑ r ∈ Finset.range N, val (w r c * data r j) - X| ≤ 2 ^ (-53 : Int) * A + N * 2 ^ (-1075 : Int) := by
    rw [hXd, ← Finset.sum_sub_distrib]
    exact (Finset.abs_sum_le_sum_abs _ _).trans hsumerr
  have hGA : ∑ r ∈ Finset.range N, |val (w r c * data r j)| ≤ 2 * A + N * 2 ^ (-1075 : Int) := by
    have h1 : ∑ r ∈ Finset.range N, |val (w r c * data r j)| ≤
        ∑ r ∈ Finset.range N, (|val (w r c * data r j) - val (w r c) * val (data r j)| + val (w r c) * |val (data r j)|) := by
      refine Finset.sum_le_sum fun r hr => ?_
      have e : |val (w r c) * val (data r j)| = val (w r c) * |val (data r j)| := by
        rw [abs_mul, abs_of_nonneg (hw r (Finset.mem_range.1 hr)).2.1]
      rw [← e]
      have := abs_add_le (val (w r c * data r j) - val (w r c) * val (data r j)) (val (w r c) * val (data r j))
      rwa [sub_add_cancel] at this
    rw [Finset.sum_add_distrib] at h1
    have h3 : (2 : ℝ) ^ (-53 : Int) * A ≤ 1 * A := mul_le_mul_of_nonneg_right (zpow_le_one_of_nonpos₀ (by norm_num) (by norm_num)) hA0
    generalize (2 : ℝ) ^ (-53 : Int) * A = z at *
    generalize (N : ℝ) * 2 ^ (-1075 : Int) = z' at *
    linarith
  have hG400 : ∑ r ∈ Finset.range N, |val (w r c * data r j)| ≤ 2 ^ (400 : Int) := by
    refine hGA.trans ((add_le_add (mul_le_mul_of_nonneg_left hA2 (by norm_num)) hη).trans ?_)
    have h1 := p_le (show (-1043 : Int) ≤ 334 by norm_num)
    have h2 : (2 : ℝ) ^ (336 : Int) = 4 * 2 ^ (334 : Int) := by
      rw [show (336 : Int) = 2 + 334 by norm_num, zpow_add₀ (by norm_num)]; norm_num
    have h3 := p_le (show (336 : Int) ≤ 400 by norm_num)
    have h4 := p_pos 334
    rw [h2] at h3
    clear h2
    generalize (2 : ℝ) ^ (334 : Int) = z at *
    generalize (2 : ℝ) ^ (-1043 : Int) = z1 at *
    generalize (2 : ℝ) ^ (400 : Int) = z2 at *
    linarith
  have hP := merge_near hI hsp hT hL hLT hlt (fun r => w r c * data r j) (fun r hr => (hprod r hr).1) hG400
  have hpw := pow_rounds (m := N) (by omega)
  have hNε : (N : ℝ) * 2 ^ (-52 : Int) ≤ 1 := Medoid.p52_le (by omega)
  -- the denominator
  have hden : Near fin val (2 ^ (-53 : Int)) (0 + (List.range N).length) (sumSeq ((List.range N).map fun r => w r c)) S S := by
    have hS' : ((List.range N).map fun r => val (w r c)).sum = S := listSum_range _ _
    have key := near_seq hI.rounds.toRounds (fun r => w r c) (fun r => val (w r c)) (fun r => val (w r c)) (m0 := 0)
      (List.range N) (fun r hr => ⟨(hw r (List.mem_range.1 hr)).1, by
        rw [abs_of_nonneg (hw r (List.mem_range.1 hr)).2.1], by simp⟩) (by
        rw [hS', List.length_range, Nat.zero_add]
        refine (mul_le_mul hpw.2 hS2 hS0.le (by norm_num)).trans (le_max_of (e := 235) (le_of_eq ?_) (by norm_num))
        rw [show (235 : Int) = 1 + 234 by norm_num, zpow_add₀ (by norm_num) 1, zpow_one])
    rwa [hS'] at key
  rw [List.length_range, Nat.zero_add] at hden
  have hden2 : |val (sumSeq ((List.range N).map fun r => w r c)) - S| ≤ (N : ℝ) * 2 ^ (-52 : Int) * S :=
    hden.err.trans (mul_le_mul_of_nonneg_right hpw.1 hS0.le)
  have hNε2 : (N : ℝ) * 2 ^ (-52 : Int) ≤ 1 / 2 := by
    have h2 := Medoid.p52_le (m := 2 * N) (by omega)
    have e : ((2 * N : Nat) : ℝ) = 2 * (N : ℝ) := by push_cast; ring
    rw [e] at h2
    generalize (2 : ℝ) ^ (-52 : Int) = ε at *
    linarith
  have hPX : |val (((List.range' 1 (T - 1)).map fun t => sumSeq ((todo t).map fun r => w r c * data r j)).foldl (· + ·)
      (sumSeq ((todo 0).map fun r => w r c * data r j))) - X| ≤
      (2 * N + 1) * 2 ^ (-52 : Int) * A + 2 * (N * 2 ^ (-1075 : Int)) := by
    have h1 := hP.err.trans (mul_le_mul hpw.1 hGA (Finset.sum_nonneg fun r _ => abs_nonneg _) (by positivity))
    have h2 : (2 : ℝ) ^ (-53 : Int) * A ≤ 2 ^ (-52 : Int) * A := mul_le_mul_of_nonneg_right (p_le (by norm_num)) hA0
    have h3 : (N : ℝ) * 2 ^ (-52 : Int) * (N * 2 ^ (-1075 : Int)) ≤ 1 * (N * 2 ^ (-1075 : Int)) :=
      mul_le_mul_of_nonneg_right hNε (by positivity)
    refine (abs_sub_le _ _ _).trans ((add_le_add h1 hGX).trans ?_)
    generalize (N : ℝ) * 2 ^ (-1075 : Int) = z1 at *
    generalize (2 : ℝ) ^ (-53 : Int) * A = z2 at *
    have h4 : (N : ℝ) * 2 ^ (-52 : Int) * (2 * A + z1) + (z2 + z1) ≤
        (N : ℝ) * 2 ^ (-52 : Int) * (2 * A) + 2 ^ (-52 : Int) * A + 2 * z1 := by
      have e : (N : ℝ) * 2 ^ (-52 : Int) * (2 * A + z1) = (N : ℝ) * 2 ^ (-52 : Int) * (2 * A) + (N : ℝ) * 2 ^ (-52 : Int) * z1 := by
        ring
      rw [e]
      linarith
    refine h4.trans (le_of_eq ?_)
    ring
  obtain ⟨hS'0, hq⟩ := quot_err hS0 hXA hPX hden2 hNε2
  set P' := ((List.range' 1 (T - 1)).map fun t => sumSeq ((todo t).map fun r => w r c * data r j)).foldl (· + ·)
      (sumSeq ((todo 0).map fun r => w r c * data r j)) with hP'
  set S' := sumSeq ((List.range N).map fun r => w r c) with hS'
  have hB0 : 0 ≤ A / S := div_nonneg hA0 hS0.le
  have hB : A / S ≤ 2 ^ (100 : Int) := by rw [div_le_iff₀ hS0]; exact hAS
  have hXS : |X / S| ≤ A / S := by rw [abs_div, abs_of_pos hS0]; exact div_le_div_of_nonneg_right hXA hS0.le
  have hδ : (N : ℝ) * 2 ^ (-1075 : Int) / S ≤ 2 ^ (-399 : Int) := by
    rw [div_le_iff₀ hS0]
    refine hη.trans ((le_of_eq ?_).trans (mul_le_mul_of_nonneg_left hS (p_pos _).le))
    rw [← zpow_add₀ (by norm_num)]; norm_num
  have hδ0 : 0 ≤ (N : ℝ) * 2 ^ (-1075 : Int) / S := by positivity
  have hq' : |val P' / val S' - X / S| ≤ (6 * N + 2) * 2 ^ (-52 : Int) * (A / S) + 4 * (N * 2 ^ (-1075 : Int) / S) := by
    refine hq.trans (le_of_eq ?_)
    generalize (2 : ℝ) ^ (-52 : Int) = ε
    generalize (2 : ℝ) ^ (-1075 : Int) = η
    field_simp
    ring
  have hcoef : (6 * (N : ℝ) + 2) * 2 ^ (-52 : Int) ≤ 1 := by
    have h2 := Medoid.p52_le (m := 6 * N + 2) (by omega)
    have e : ((6 * N + 2 : Nat) : ℝ) = 6 * (N : ℝ) + 2 := by push_cast; ring
    rwa [e] at h2
  have hcoef' := mul_le_mul_of_nonneg_right hcoef hB0
  have hPS : |val P' / val S'| ≤ 2 * (A / S) + 4 * (N * 2 ^ (-1075 : Int) / S) := by
    have h1 := abs_add_le (val P' / val S' - X / S) (X / S)
    rw [sub_add_cancel] at h1
    clear_value A S X
    generalize (N : ℝ) * 2 ^ (-1075 : Int) / S = z at *
    generalize (6 * (N : ℝ) + 2) * 2 ^ (-52 : Int) * (A / S) = z' at *
    linarith
  have hM : |val P' / val S'| ≤ maxDouble := by
    refine hPS.trans (le_max_of (e := 103) ?_ (by norm_num))
    have h1 := p_le (show (-399 : Int) ≤ 100 by norm_num)
    rw [show (103 : Int) = 3 + 100 by norm_num, zpow_add₀ (by norm_num) 3]
    have h8 : (2 : ℝ) ^ (3 : Int) = 8 := by norm_num
    rw [h8]
    clear hq' hcoef hcoef' hPX hden2 hq hNε hNε2 hS hS2 hA2 hAS hη hGX hGA hG400
    clear_value A S X
    generalize (N : ℝ) * 2 ^ (-1075 : Int) / S = z at *
    generalize (2 : ℝ) ^ (100 : Int) = z1 at *
    generalize (2 : ℝ) ^ (-399 : Int) = z2 at *
    linarith
  obtain ⟨ff, nn⟩ := hI.div P' S' hP.fin hden.fin hS'0.ne' hM
  refine ⟨ff, ?_⟩
  have r := nearest_err hM nn
  have hfin := abs_sub_le (val (P' / S')) (val P' / val S') (X / S)
  have h5 : (2 : ℝ) ^ (-53 : Int) * |val P' / val S'| ≤
      2 ^ (-52 : Int) * (A / S) + 2 * (N * 2 ^ (-1075 : Int) / S) := by
    refine (mul_le_mul_of_nonneg_left hPS (p_pos _).le).trans ?_
    have e52 : (2 : ℝ) ^ (-52 : Int) = 2 * 2 ^ (-53 : Int) := by
      rw [show (-52 : Int) = 1 + -53 by norm_num, zpow_add₀ (by norm_num)]; norm_num
    have h53 : (2 : ℝ) ^ (-53 : Int) ≤ 1 / 2 := by norm_num
    rw [e52]
    have := mul_le_mul_of_nonneg_right h53 (by linarith : 0 ≤ 4 * ((N : ℝ) * 2 ^ (-1075 : Int) / S))
    generalize (2 : ℝ) ^ (-53 : Int) = u at *
    have e : u * (2 * (A / S) + 4 * ((N : ℝ) * 2 ^ (-1075 : Int) / S)) =
      2 * u * (A / S) + u * (4 * ((N : ℝ) * 2 ^ (-1075 : Int) / S)) := by ring
    rw [e]
    linarith
  have h6 : (2 : ℝ) ^ (-1075 : Int) + 6 * ((N : ℝ) * 2 ^ (-1075 : Int) / S) ≤ 2 ^ (-390 : Int) := by
    have h1 := p_le (show (-1075 : Int) ≤ -399 by norm_num)
    rw [show (-390 : Int) = 9 + -399 by norm_num, zpow_add₀ (by norm_num) 9]
    have h8 : (2 : ℝ) ^ (9 : Int) = 512 := by norm_num
    rw [h8]
    have h9 := p_pos (-399)
    clear_value A S X
    generalize (N : ℝ) * 2 ^ (-1075 : Int) / S = z at *
    generalize (2 : ℝ) ^ (-1075 : Int) = z1 at *
    generalize (2 : ℝ) ^ (-399 : Int) = z2 at *
    linarith
  have h7 : (6 * (N : ℝ) + 2) * 2 ^ (-52 : Int) * (A / S) + 2 ^ (-52 : Int) * (A / S) ≤
      ((6 * N + 14 : Nat) : ℝ) * 2 ^ (-52 : Int) * (A / S) := by
    rw [← add_mul, ← add_one_mul]
    refine mul_le_mul_of_nonneg_right (mul_le_mul_of_nonneg_right ?_ (p_pos _).le) hB0
    push_cast
    linarith
  have hval : val (centerAny T N todo data w c j) = val (P' / S') := rfl
  rw [hval]
  refine hfin.trans ((add_le_add r hq').trans ?_)
  clear hfin r hq' hPS hM hcoef hcoef' hPX hden2 hq hNε hNε2 hS hS2 hA2 hAS hη hGX hGA hG400 hB hδ
  clear_value A S X
  generalize (N : ℝ) * 2 ^ (-1075 : Int) / S = z at *
  generalize (2 : ℝ) ^ (-53 : Int) * |val P' / val S'| = z1 at *
  generalize (6 * (N : ℝ) + 2) * 2 ^ (-52 : Int) * (A / S) = z2 at *
  generalize ((6 * N + 14 : Nat) : ℝ) * 2 ^ (-52 : Int) * (A / S) = z3 at *
  generalize (2 : ℝ) ^ (-52 : Int) * (A / S) = z4 at *
  generalize (2 : ℝ) ^ (-1075 : Int) = z5 at *
  generalize (2 : ℝ) ^ (-390 : Int) = z6 at *
  linarith

end Double

section Double

variable {R : Type _} {k n : Nat} [Zero R] [One R] [Add R] [Sub R] [Mul R] [Div R] [IntCast R] [NatCast R] [LT R]
  [LE R] {fin : R → Prop} {val : R → ℝ} {sqrt abs' : R → R}

omit [One R] in
theorem exists_big (hI : IeeeDouble fin val sqrt abs') : ∃ big : R, fin big ∧ val big = maxDouble := by
  have e : (((2 ^ 53 - 1) * 2 ^ 971 : Nat) : ℝ) = maxDouble := by
    unfold maxDouble
    rw [Nat.cast_mul, Nat.cast_pow, Nat.cast_sub (by norm_num), Nat.cast_pow, Nat.cast_one, Nat.cast_ofNat,
      show (971 : Int) = ((971 : Nat) : Int) by norm_num, zpow_natCast]
  have hd : IsDouble maxDouble := ⟨2 ^ 53 - 1, 971, by norm_num, by norm_num, by norm_num, by
    unfold maxDouble; norm_num⟩
  have h0 : 0 ≤ maxDouble := (p_pos 1023).le.trans p_le_max
  obtain ⟨f, q⟩ := hI.nat ((2 ^ 53 - 1) * 2 ^ 971) (by rw [e, abs_of_nonneg h0])
  rw [e] at q
  exact ⟨_, f, nearest_of_double q hd⟩

/-- Rounding does not cross a double. -/
theorem nearest_ge {x q p : ℝ} (h : NearestDouble x q) (hp : IsDouble p) (hx : p ≤ x) : p ≤ q := by
  have h1 := h.2 p hp
  rw [abs_of_nonneg (sub_nonneg.2 hx)] at h1
  have := (abs_le.1 h1).2
  linarith

theorem isDouble_p537 : IsDouble ((2 : ℝ) ^ (-537 : Int)) :=
  ⟨1, -537, by norm_num, by norm_num, by norm_num, by norm_num⟩

theorem eucl_triangle (x y z : Fin n → ℝ) :
    metricDist .eucl x z ≤ metricDist .eucl x y + metricDist .eucl y z := by
  have := Dist.sqrt_sum_triangle (fun j => x j - y j) (fun j => y j - z j)
  simp only [sub_add_sub_cancel] at this
  exact this

theorem eucl_symm (x y : Fin n → ℝ) : metricDist .eucl x y = metricDist .eucl y x := by
  show √(sqDistance x y) = √(sqDistance y x)
  congr 1
  unfold sqDistance
  exact Finset.sum_congr rfl fun j _ => by ring

omit [One R] in
/-- The Euclidean distance. -/
theorem eucl_good (hI : IeeeDouble fin val sqrt abs') (hn : n ≤ 4294967296) (cosd : Row R n → Row R n → R) {x y : Row R n}
    (hx : InBox fin val (2 ^ (100 : Int)) x) (hy : InBox fin val (2 ^ (101 : Int)) y) :
    GoodFcmDist fin val (anyDist sqrt abs' cosd .eucl x y) ∧
      |val (anyDist sqrt abs' cosd .eucl x y) - metricDist .eucl (fun j => val (x j)) fun j => val (y j)| ≤
        (n + 4 : Nat) * 2 ^ (-52 : Int) * metricDist .eucl (fun j => val (x j)) (fun j => val (y j)) +
          metricSlack .eucl := by
  obtain ⟨big, hbig⟩ := exists_big hI
  have hx' := Kmeans.InBox.mono hx (p_le (show (100 : Int) ≤ 402 by norm_num))
  have hy' := Kmeans.InBox.mono hy (p_le (show (101 : Int) ≤ 402 by norm_num))
  obtain ⟨hD, hX⟩ := dist_double (n := n) hI hbig hn cosd (met := .eucl) (by decide)
  obtain ⟨g1, -, g3⟩ := hD.near x y hx' hy'
  obtain ⟨g4, -, -⟩ := hX x y hx' hy'
  have hb := sq_bound hn
  have hbM : (2 : ℝ) ^ (841 : Int) ≤ maxDouble := (p_le (by norm_num)).trans p_le_max
  obtain ⟨s1, -, -, s4⟩ := sq_near hI.rounds big_box.1 big_box.2 (hb.trans hbM) hx' hy'
  obtain ⟨-, sq⟩ := hI.sqrt _ s1 s4
  refine ⟨⟨g1, g4, fun hpos => ?_, ?_⟩, g3⟩
  · have hv0 : 0 < val (Dist.sqeuclAny x y) := by
      rcases s4.lt_or_eq with h | h
      · exact h
      · exfalso
        rw [← h, Real.sqrt_zero] at sq
        have := nearest_of_double sq isDouble_zero
        have h2 : val (anyDist sqrt abs' cosd .eucl x y) = 0 := this
        exact absurd h2 hpos.ne'
    obtain ⟨z, hz⟩ := isDouble_multiple (hI.double _ s1)
    have hz0 : 0 < z := by
      rw [hz] at hv0
      have := pos_of_mul_pos_left hv0 (p_pos _).le
      exact_mod_cast this
    have hv : (2 : ℝ) ^ (-1074 : Int) ≤ val (Dist.sqeuclAny x y) := by
      rw [hz]
      have : (1 : ℝ) ≤ z := by exact_mod_cast hz0
      exact le_mul_of_one_le_left (p_pos _).le this
    refine nearest_ge sq isDouble_p537 ?_
    apply Real.le_sqrt_of_sq_le
    refine (le_of_eq ?_).trans hv
    rw [← zpow_natCast, ← zpow_mul]
    norm_num
  · have hd0 := metricDist_nonneg .eucl (fun j => val (x j)) fun j => val (y j)
    have hd : metricDist .eucl (fun j => val (x j)) (fun j => val (y j)) ≤ 2 ^ (118 : Int) := by
      have hsum : sqDistance (fun j => val (x j)) (fun j => val (y j)) ≤ 2 ^ (236 : Int) := by
        have h4 : sqDistance (fun j => val (x j)) (fun j => val (y j)) ≤
            (Finset.univ : Finset (Fin n)).card • (2 : ℝ) ^ (204 : Int) := by
          unfold sqDistance
          refine Finset.sum_le_card_nsmul _ _ _ fun j _ => ?_
          have q1 := (hx j).2.trans (p_le (show (100 : Int) ≤ 101 by norm_num))
          have q2 := (hy j).2
          have q3 : |val (x j) - val (y j)| ≤ 2 ^ (102 : Int) := by
            refine (abs_sub _ _).trans ((add_le_add q1 q2).trans (le_of_eq ?_))
            rw [show (102 : Int) = 1 + 101 by norm_num, zpow_add₀ (by norm_num) 1, zpow_one]; ring
          have q4 := pow_le_pow_left₀ (abs_nonneg _) q3 2
          rw [sq_abs] at q4
          refine q4.trans (le_of_eq ?_)
          rw [← zpow_natCast, ← zpow_mul]
          norm_num
        rw [Finset.card_univ, Fintype.card_fin, nsmul_eq_mul] at h4
        refine h4.trans ((mul_le_mul_of_nonneg_right (nat32 hn) (p_pos _).le).trans (le_of_eq ?_))
        rw [← zpow_add₀ (by norm_num)]; norm_num
      show √(sqDistance _ _) ≤ _
      apply Real.sqrt_le_iff.2
      refine ⟨(p_pos _).le, hsum.trans (le_of_eq ?_)⟩
      rw [← zpow_natCast, ← zpow_mul]
      norm_num
    have hγ : ((n + 4 : Nat) : ℝ) * 2 ^ (-52 : Int) ≤ 1 := Medoid.p52_le (by omega)
    have h1 := mul_le_mul_of_nonneg_right hγ hd0
    have h2 := (abs_le.1 g3).2
    have h3 : metricSlack .eucl ≤ 2 ^ (118 : Int) := p_le (by norm_num)
    have h4 : (2 : ℝ) ^ (121 : Int) = 8 * 2 ^ (118 : Int) := by
      rw [show (121 : Int) = 3 + 118 by norm_num, zpow_add₀ (by norm_num)]; norm_num
    rw [h4]
    have h5 := p_pos 118
    clear h4 g3 hX hD hb hbM
    generalize (2 : ℝ) ^ (118 : Int) = z at *
    generalize ((n + 4 : Nat) : ℝ) * 2 ^ (-52 : Int) * metricDist .eucl (fun j => val (x j)) (fun j => val (y j)) = z2 at *
    linarith

omit [One R] in
/-- Among `k+1` rows that are far from each other, one is far from all `k` centres. -/
theorem far_row (hI : IeeeDouble fin val sqrt abs') (hn : n ≤ 4294967296) (cosd : Row R n → Row R n → R) {N : Nat}
    {data : Nat → Row R n} (hx : ∀ r, r < N → InBox fin val (2 ^ (100 : Int)) (data r)) {y : Fin k → Row R n}
    (hy : ∀ c, InBox fin val (2 ^ (101 : Int)) (y c)) {q : Fin (k + 1) → Nat} (hq : ∀ i, q i < N)
    (hfar : ∀ i i', i ≠ i' → 2 ^ (-97 : Int) ≤
      metricDist .eucl (fun j => val (data (q i) j)) fun j => val (data (q i') j)) :
    ∃ r, r < N ∧ ∀ c, 2 ^ (-100 : Int) ≤ val (anyDist sqrt abs' cosd .eucl (data r) (y c)) := by
  by_contra hcon
  have hall : ∀ i, ∃ c, val (anyDist sqrt abs' cosd .eucl (data (q i)) (y c)) < 2 ^ (-100 : Int) := by
    intro i
    by_contra h
    simp only [not_exists, not_lt] at h
    exact hcon ⟨q i, hq i, h⟩
  choose f hf using hall
  obtain ⟨i, i', hne, e⟩ := Fintype.exists_ne_map_eq_of_card_lt f (by simp)
  have hclose : ∀ i, metricDist .eucl (fun j => val (data (q i) j)) (fun j => val (y (f i) j)) ≤ 3 * 2 ^ (-100 : Int) := by
    intro i
    have h1 := (eucl_good hI hn cosd (hx _ (hq i)) (hy (f i))).2
    have h2 := hf i
    have hd0 := metricDist_nonneg .eucl (fun j => val (data (q i) j)) fun j => val (y (f i) j)
    have hγ : ((n + 4 : Nat) : ℝ) * 2 ^ (-52 : Int) ≤ 1 / 2 := by
      have h2 := Medoid.p52_le (m := 2 * (n + 4)) (by omega)
      have e : ((2 * (n + 4) : Nat) : ℝ) = 2 * ((n + 4 : Nat) : ℝ) := by push_cast; ring
      rw [e] at h2
      generalize (2 : ℝ) ^ (-52 : Int) = ε at *
      linarith
    have h3 := mul_le_mul_of_nonneg_right hγ hd0
    have h4 := (abs_le.1 h1).1
    have h5 : (metricSlack .eucl : ℝ) ≤ 1 / 2 * 2 ^ (-100 : Int) := by
      have : (1 : ℝ) / 2 * 2 ^ (-100 : Int) = 2 ^ (-101 : Int) := by
        rw [show (-101 : Int) = -1 + -100 by norm_num, zpow_add₀ (by norm_num)]; norm_num
      rw [this]
      exact p_le (by norm_num)
    clear h1 hcon hfar
    generalize (2 : ℝ) ^ (-100 : Int) = z at *
    generalize ((n + 4 : Nat) : ℝ) * 2 ^ (-52 : Int) * metricDist .eucl (fun j => val (data (q i) j)) (fun j => val (y (f i) j)) = z2 at *
    linarith
  have h1 := hfar i i' hne
  have h2 := eucl_triangle (fun j => val (data (q i) j)) (fun j => val (y (f i) j)) fun j => val (data (q i') j)
  have h3 := hclose i
  have h4 := hclose i'
  rw [← e, eucl_symm] at h4
  have h5 : (2 : ℝ) ^ (-97 : Int) = 8 * 2 ^ (-100 : Int) := by
    rw [show (-97 : Int) = 3 + -100 by norm_num, zpow_add₀ (by norm_num)]; norm_num
  rw [h5] at h1
  have h6 := p_pos (-100)
  clear h5 hfar hcon hf
  generalize (2 : ℝ) ^ (-100 : Int) = z at *
  linarith

end Double

section Double

variable {R : Type _} {k n : Nat} [Zero R] [One R] [Add R] [Sub R] [Mul R] [Div R] [IntCast R] [NatCast R] [LT R]
  [LE R] {fin : R → Prop} {val : R → ℝ} {sqrt abs' : R → R}

/-- What holds after an iteration on doubles from the centres `y`. -/
structure AfterNear (fin : R → Prop) (val : R → ℝ) (N m : Nat) (data : Nat → Row R n) (y : Fin k → Row R n)
    (s : FState R k n) : Prop where
  prev : s.prev = y
  step : NearFuzzyStep fin val (metricDist .eucl) ((n + 4 : Nat) * 2 ^ (-52 : Int)) (metricSlack .eucl) N m data y s.um
    s.centers
  box : ∀ c, InBox fin val (2 ^ (101 : Int)) (s.centers c)
  some : ∀ r, r < N → ∃ c, 2 ^ (-400 : Int) ≤ val (s.um r c)

/-- One iteration on doubles. -/
theorem iteration_double [DecidableLT R] [Pow R Nat] (hI : IeeeDouble fin val sqrt abs') (h1 : fin 1 ∧ val (1 : R) = 1)
    (cosd : Row R n → Row R n → R) {root : R → R} {m : Nat} (hm : 2 ≤ m) (hroot : RootRounds fin val root m)
    (hpow : PowRounds fin val m) (hk : 0 < k) (hk' : k ≤ 4294967296) (hkm : ((2 * k : Nat) : ℝ) ^ m ≤ 2 ^ (200 : Int))
    (hn' : n ≤ 4294967296) {N nt : Nat} (hn : 0 < N) (hnt : 0 < nt) (hlt : N < 4294967296) {data : Nat → Row R n}
    (hx : ∀ r, r < N → InBox fin val (2 ^ (100 : Int)) (data r))
    (hfar : FarRows k (2 ^ (-97 : Int)) (metricDist .eucl) N fun r j => val (data r j)) {s1 s2 : List Nat}
    (hc1 : Complete (effThreads nt N) (threadRows N nt) s1)
    (hc2 : Complete (effThreads nt N) (threadRows N nt) s2) (s : FState R k n)
    (hy : ∀ c, InBox fin val (2 ^ (101 : Int)) (s.centers c)) :
    ∃ s', iteration root (fun x y => some (anyDist sqrt abs' cosd .eucl x y)) data N nt m s1 s2 s = .ok s' ∧
      AfterNear fin val N m data s.centers s' := by
  obtain ⟨s', e, hprev, hum, hcent⟩ := iteration_any (root := root)
    (dist := fun x y => some (anyDist sqrt abs' cosd .eucl x y)) (data := data) (fuzz := m) s hn hnt hlt hc1 hc2
  refine ⟨s', e, ?_⟩
  have hg : ∀ r, r < N → ∀ c, GoodFcmDist fin val (anyDist sqrt abs' cosd .eucl (data r) (s.centers c)) ∧ _ :=
    fun r hr c => eucl_good hI hn' cosd (hx r hr) (hy c)
  have hw : ∀ r, r < N → ∀ c, ∃ v : ℝ, WeightOk fin val k m
      (exactWeight m (val (anyDist sqrt abs' cosd .eucl (data r) (s.centers c))) /
        ∑ c', exactWeight m (val (anyDist sqrt abs' cosd .eucl (data r) (s.centers c')))) v (s'.um r c) := by
    intro r hr c
    rw [hum r hr c]
    exact weight_double hI h1 hm hroot hpow hk hk' (fun c => (hg r hr c).1) c
  have hex : ∀ r c, ∃ v : ℝ, r < N → WeightOk fin val k m
      (exactWeight m (val (anyDist sqrt abs' cosd .eucl (data r) (s.centers c))) /
        ∑ c', exactWeight m (val (anyDist sqrt abs' cosd .eucl (data r) (s.centers c')))) v (s'.um r c) := by
    intro r c
    by_cases hr : r < N
    · obtain ⟨v, h⟩ := hw r hr c
      exact ⟨v, fun _ => h⟩
    · exact ⟨0, fun h => absurd h hr⟩
  choose v hv using hex
  have hk1 : (1 : ℝ) ≤ k := by exact_mod_cast hk
  have h2m : (2 : ℝ) ^ m ≤ 2 ^ (200 : Int) := by
    refine le_trans (pow_le_pow_left₀ (by norm_num) ?_ m) hkm
    push_cast
    linarith
  have hx0 : ∀ r c, 0 < exactWeight m (val (anyDist sqrt abs' cosd .eucl (data r) (s.centers c))) /
      ∑ c', exactWeight m (val (anyDist sqrt abs' cosd .eucl (data r) (s.centers c'))) := fun r c =>
    div_pos (exactWeight_pos _ _) (Finset.sum_pos (fun c _ => exactWeight_pos _ _) ⟨c, Finset.mem_univ c⟩)
  have h51 : (2 : ℝ) ^ (-51 : Int) ≤ 1 / 2 := by norm_num
  have hv0 : ∀ r, r < N → ∀ c, 0 ≤ v r c := fun r hr c => by
    have := (hv r c hr).half
    have := hx0 r c
    linarith
  have hwle : ∀ r, r < N → ∀ c, val (s'.um r c) ≤ 2 ^ (202 : Int) := by
    intro r hr c
    have h := hv r c hr
    have hp := pow_le_pow_left₀ (hv0 r hr c) h.two m
    have hp' := hp.trans h2m
    have h3 := (abs_le.1 h.pow).2
    have h4 := mul_le_mul_of_nonneg_right h51 (pow_nonneg (hv0 r hr c) m)
    have h5 := p_le (show (-1074 : Int) ≤ 200 by norm_num)
    have h6 : (2 : ℝ) ^ (202 : Int) = 4 * 2 ^ (200 : Int) := by
      rw [show (202 : Int) = 2 + 200 by norm_num, zpow_add₀ (by norm_num)]; norm_num
    rw [h6]
    have h7 := p_pos 200
    clear h6 h2m hkm hp h51
    generalize (2 : ℝ) ^ (-51 : Int) * v r c ^ m = z1 at *
    generalize (2 : ℝ) ^ (200 : Int) = z2 at *
    generalize (2 : ℝ) ^ (-1074 : Int) = z3 at *
    linarith
  have hwlo : ∀ r, r < N → ∀ c (z : Int), -1000 ≤ z → 2 ^ z ≤ v r c ^ m → 2 ^ (z - 2) ≤ val (s'.um r c) := by
    intro r hr c z hz hle
    have h := hv r c hr
    have h3 := (abs_le.1 h.pow).1
    have h4 := mul_le_mul_of_nonneg_right h51 (pow_nonneg (hv0 r hr c) m)
    have h5 := p_le (show (-1074 : Int) ≤ z - 2 by omega)
    have h6 : (2 : ℝ) ^ z = 4 * 2 ^ (z - 2) := by
      rw [show z = 2 + (z - 2) by omega, zpow_add₀ (by norm_num)]
      norm_num
    rw [h6] at hle
    clear h6 h2m hkm h51
    generalize (2 : ℝ) ^ (-51 : Int) * v r c ^ m = z1 at *
    generalize (2 : ℝ) ^ (z - 2) = z2 at *
    generalize (2 : ℝ) ^ (-1074 : Int) = z3 at *
    linarith
  obtain ⟨q, hq, hqfar⟩ := hfar
  obtain ⟨r0, hr0, hd0⟩ := far_row hI hn' cosd hx hy hq hqfar
  have hS : ∀ c, 2 ^ (-644 : Int) ≤ ∑ r ∈ Finset.range N, val (s'.um r c) := by
    intro c
    have h := hv r0 c hr0
    have hp := member_pow hm hk hkm hd0 (fun c => (hg r0 hr0 c).1.big) c
    have hp2 := hp.trans (pow_le_pow_left₀ (div_nonneg (hx0 r0 c).le (by norm_num)) h.half m)
    have h3 := hwlo r0 hr0 c (-642) (by norm_num) hp2
    exact h3.trans (Finset.single_le_sum (f := fun r => val (s'.um r c))
      (fun r hr => (hv r c (Finset.mem_range.1 hr)).nonneg) (Finset.mem_range.2 hr0))
  have hcd : ∀ c j, fin (s'.centers c j) ∧
      |val (s'.centers c j) -
          (∑ r ∈ Finset.range N, val (s'.um r c) * val (data r j)) / ∑ r ∈ Finset.range N, val (s'.um r c)| ≤
        ((6 * N + 14 : Nat) : ℝ) * 2 ^ (-52 : Int) *
          ((∑ r ∈ Finset.range N, val (s'.um r c) * |val (data r j)|) / ∑ r ∈ Finset.range N, val (s'.um r c)) +
          2 ^ (-390 : Int) := by
    intro c j
    have hcongr : s'.centers c j = centerAny (effThreads nt N) N (threadRows N nt) data s'.um c j := by
      rw [hcent c j]
      unfold centerAny prodAny
      have hsp := split_threadRows hn hnt hlt
      have e1 : ∀ t, (threadRows N nt t).map (fun r =>
          weightAny root (fun x y => some (anyDist sqrt abs' cosd .eucl x y)) m data s.centers r c * data r j) =
          (threadRows N nt t).map (fun r => s'.um r c * data r j) := fun t =>
        List.map_congr_left fun r hr => by rw [hum r ((hsp.mem_iff r).1 ⟨t, hr⟩) c]
      simp only [e1]
      congr 2
      exact List.map_congr_left fun r hr => (hum r (List.mem_range.1 hr) c).symm
    rw [hcongr]
    exact center_double hI (split_threadRows hn hnt hlt) (effThreads_pos hnt hn) (fun t => threadRows_length t)
      (Medoid.len_le_succ hn hnt) hlt hx (c := c) (fun r hr => ⟨(hv r c hr).fin, (hv r c hr).nonneg, hwle r hr c⟩) (hS c) j
  refine ⟨hprev, ⟨fun r c => val (anyDist sqrt abs' cosd .eucl (data r) (s.centers c)), v,
    fun r hr c => ⟨(hg r hr c).1.nonneg, (hg r hr c).2⟩, fun r hr c => (hv r c hr).near,
    fun r hr c => ⟨(hv r c hr).fin, (hv r c hr).nonneg, (hv r c hr).pow⟩,
    fun c => ⟨lt_of_lt_of_le (p_pos _) (hS c), fun j => hcd c j⟩⟩, fun c j => ⟨(hcd c j).1, ?_⟩, fun r hr => ?_⟩
  · -- the new centres are small
    have hS0 : 0 < ∑ r ∈ Finset.range N, val (s'.um r c) := lt_of_lt_of_le (p_pos _) (hS c)
    have h3 := (hcd c j).2
    have hB : (∑ r ∈ Finset.range N, val (s'.um r c) * |val (data r j)|) / ∑ r ∈ Finset.range N, val (s'.um r c) ≤
        2 ^ (100 : Int) := by
      rw [div_le_iff₀ hS0, Finset.mul_sum]
      refine Finset.sum_le_sum fun r hr => ?_
      rw [mul_comm]
      exact mul_le_mul_of_nonneg_right (hx r (Finset.mem_range.1 hr) j).2 (hv r c (Finset.mem_range.1 hr)).nonneg
    have hB0 : 0 ≤ (∑ r ∈ Finset.range N, val (s'.um r c) * |val (data r j)|) / ∑ r ∈ Finset.range N, val (s'.um r c) :=
      div_nonneg (Finset.sum_nonneg fun r hr => mul_nonneg (hv r c (Finset.mem_range.1 hr)).nonneg (abs_nonneg _)) hS0.le
    have hXB : |(∑ r ∈ Finset.range N, val (s'.um r c) * val (data r j)) / ∑ r ∈ Finset.range N, val (s'.um r c)| ≤
        (∑ r ∈ Finset.range N, val (s'.um r c) * |val (data r j)|) / ∑ r ∈ Finset.range N, val (s'.um r c) := by
      rw [abs_div, abs_of_pos hS0]
      refine div_le_div_of_nonneg_right ?_ hS0.le
      refine (Finset.abs_sum_le_sum_abs _ _).trans (le_of_eq (Finset.sum_congr rfl fun r hr => ?_))
      rw [abs_mul, abs_of_nonneg (hv r c (Finset.mem_range.1 hr)).nonneg]
    have hco : ((6 * N + 14 : Nat) : ℝ) * 2 ^ (-52 : Int) ≤ 1 / 2 := by
      have h2 := Medoid.p52_le (m := 2 * (6 * N + 14)) (by omega)
      have e : ((2 * (6 * N + 14) : Nat) : ℝ) = 2 * ((6 * N + 14 : Nat) : ℝ) := by push_cast; ring
      rw [e] at h2
      generalize (2 : ℝ) ^ (-52 : Int) = ε at *
      linarith
    have h4 := mul_le_mul_of_nonneg_right hco hB0
    have h5 := p_le (show (-390 : Int) ≤ 98 by norm_num)
    have h6 : (2 : ℝ) ^ (101 : Int) = 8 * 2 ^ (98 : Int) := by
      rw [show (101 : Int) = 3 + 98 by norm_num, zpow_add₀ (by norm_num)]; norm_num
    have h7 : (2 : ℝ) ^ (100 : Int) = 4 * 2 ^ (98 : Int) := by
      rw [show (100 : Int) = 2 + 98 by norm_num, zpow_add₀ (by norm_num)]; norm_num
    have h8 := p_pos 98
    have h9 := abs_sub_abs_le_abs_sub (val (s'.centers c j))
      ((∑ r ∈ Finset.range N, val (s'.um r c) * val (data r j)) / ∑ r ∈ Finset.range N, val (s'.um r c))
    rw [h6]
    rw [h7] at hB
    clear h6 h7 h2m hkm h51 hS hwlo hwle hw hg hcd
    generalize (∑ r ∈ Finset.range N, val (s'.um r c) * |val (data r j)|) / ∑ r ∈ Finset.range N, val (s'.um r c) = B at *
    generalize (∑ r ∈ Finset.range N, val (s'.um r c) * val (data r j)) / ∑ r ∈ Finset.range N, val (s'.um r c) = X at *
    generalize ((6 * N + 14 : Nat) : ℝ) * 2 ^ (-52 : Int) * B = z1 at *
    generalize (2 : ℝ) ^ (-390 : Int) = z2 at *
    generalize (2 : ℝ) ^ (98 : Int) = z3 at *
    linarith
  · -- some membership is not small
    have hS0 : 0 < ∑ c', exactWeight m (val (anyDist sqrt abs' cosd .eucl (data r) (s.centers c'))) :=
      Finset.sum_pos (fun c _ => exactWeight_pos _ _) ⟨⟨0, hk⟩, Finset.mem_univ _⟩
    have hc0 : ∃ c, 1 / (k : ℝ) ≤ exactWeight m (val (anyDist sqrt abs' cosd .eucl (data r) (s.centers c))) /
        ∑ c', exactWeight m (val (anyDist sqrt abs' cosd .eucl (data r) (s.centers c'))) := by
      by_contra hcon
      simp only [not_exists, not_le] at hcon
      have h := Finset.sum_lt_sum_of_nonempty (s := (Finset.univ : Finset (Fin k))) ⟨⟨0, hk⟩, Finset.mem_univ _⟩
        fun c _ => hcon c
      rw [← Finset.sum_div, div_self hS0.ne'] at h
      simp only [Finset.sum_const, Finset.card_univ, Fintype.card_fin, nsmul_eq_mul] at h
      rw [mul_one_div, div_self (by linarith)] at h
      exact lt_irrefl _ h
    obtain ⟨c, hc⟩ := hc0
    refine ⟨c, ?_⟩
    have h := (hv r c hr).half
    have hp : ((1 : ℝ) / (2 * k : Nat)) ^ m ≤ v r c ^ m := by
      refine pow_le_pow_left₀ (by positivity) ?_ m
      refine le_trans (le_of_eq ?_) ((div_le_div_of_nonneg_right hc (by norm_num : (0 : ℝ) ≤ 2)).trans h)
      push_cast
      rw [div_div, mul_comm]
    have hp2 : (2 : ℝ) ^ (-200 : Int) ≤ ((1 : ℝ) / (2 * k : Nat)) ^ m := by
      rw [div_pow, one_pow, zpow_neg, ← one_div]
      exact one_div_le_one_div_of_le (by positivity) hkm
    exact (p_le (by norm_num)).trans (hwlo r hr c (-200) (by norm_num) (hp2.trans hp))

end Double

section Run

variable {R S : Type _} {k n : Nat} [Zero R] [One R] [Add R] [Sub R] [Mul R] [Div R] [IntCast R] [NatCast R] [LT R]
  [LE R] {fin : R → Prop} {val : R → ℝ} {sqrt abs' : R → R}

omit [IntCast R] [LE R] in
/-- The loop, if every iteration from good centres gives a good state. -/
theorem loop_any [DecidableLT R] [Pow R Nat] {root : R → R} {dist : Row R n → Row R n → Option R}
    {norm : (Fin k → Row R n) → R} {data : Nat → Row R n} {N nt m : Nat} {tol : R} {maxIters : Nat}
    {s1 s2 : Nat → List Nat} (good : (Fin k → Row R n) → Prop) (after : (Fin k → Row R n) → FState R k n → Prop)
    (hprev : ∀ y s, after y s → s.prev = y ∧ good s.centers)
    (hit : ∀ i (s : FState R k n), good s.centers →
      ∃ s', iteration root dist data N nt m (s1 i) (s2 i) s = .ok s' ∧ after s.centers s') :
    ∀ fuel iter (s : FState R k n), fuel + iter = maxIters + 2 → 1 ≤ iter → iter ≤ maxIters → good s.centers →
    ∃ (iters t : Nat) (st : Nat → FState R k n), loop root dist norm data N nt m tol maxIters s1 s2 fuel iter s = .ok (iters, st (t + 1)) ∧
      st 0 = s ∧ iter + t ≤ maxIters ∧ (∀ i, i ≤ t → after (st i).centers (st (i + 1))) ∧
      (∀ i, i < t → ¬ norm (fun c j => (st (i + 1)).centers c j - (st i).centers c j) < tol) ∧
      ((norm (fun c j => (st (t + 1)).centers c j - (st t).centers c j) < tol ∧ iters = iter + t) ∨
        (¬ norm (fun c j => (st (t + 1)).centers c j - (st t).centers c j) < tol ∧ iter + t = maxIters ∧
          iters = maxIters + 1)) := by
  intro fuel
  induction fuel with
  | zero => intro iter s h1 h2 h3; omega
  | succ fuel ih =>
    intro iter s h1 h2 h3 hg
    unfold loop
    rw [if_pos ⟨h3, by omega⟩]
    obtain ⟨s', e, ha⟩ := hit iter s hg
    obtain ⟨hp, hg'⟩ := hprev _ _ ha
    rw [e]
    simp only [hp]
    by_cases hmv : norm (fun c j => s'.centers c j - s.centers c j) < tol
    · rw [if_pos hmv]
      exact ⟨iter, 0, fun i => if i = 0 then s else s', rfl, rfl, h3, fun i hi => by
        obtain rfl : i = 0 := by omega
        exact ha, fun i hi => absurd hi (by omega), Or.inl ⟨hmv, rfl⟩⟩
    · rw [if_neg hmv]
      by_cases hlast : iter = maxIters
      · subst hlast
        refine ⟨iter + 1, 0, fun i => if i = 0 then s else s', ?_, rfl, le_rfl, fun i hi => by
          obtain rfl : i = 0 := by omega
          exact ha, fun i hi => absurd hi (by omega), Or.inr ⟨hmv, rfl, rfl⟩⟩
        obtain ⟨fuel, rfl⟩ : ∃ f, fuel = f + 1 := ⟨fuel - 1, by omega⟩
        unfold loop
        rw [if_neg (by omega)]
        rfl
      · obtain ⟨iters, t, st, e', h0, hle, haf, hmid, hend⟩ := ih (iter + 1) s' (by omega) (by omega) (by omega) hg'
        refine ⟨iters, t + 1, fun i => if i = 0 then s else st (i - 1), ?_, rfl, by omega, ?_, ?_, ?_⟩
        · simpa using e'
        · intro i hi
          rcases Nat.eq_zero_or_pos i with rfl | hp
          · simpa [h0] using ha
          · obtain ⟨j, rfl⟩ : ∃ j, i = j + 1 := ⟨i - 1, by omega⟩
            simpa using haf j (by omega)
        · intro i hi
          rcases Nat.eq_zero_or_pos i with rfl | hp
          · simpa [h0] using hmv
          · obtain ⟨j, rfl⟩ : ∃ j, i = j + 1 := ⟨i - 1, by omega⟩
            simpa using hmid j (by omega)
        · rcases hend with ⟨a, b⟩ | ⟨a, b, c⟩
          · exact Or.inl ⟨by simpa using a, by omega⟩
          · exact Or.inr ⟨by simpa using a, by omega, c⟩

omit [One R] in
/-- `argmax` looks only at the values of doubles. -/
theorem argmax_val [DecidableLT R] (hI : IeeeDouble fin val sqrt abs') {dmin : R} (hd : fin dmin) {f : Fin k → R}
    (hf : ∀ c, fin (f c)) : argmax dmin f = argmax (val dmin) fun c => val (f c) := by
  unfold argmax
  have gen : ∀ (l : List (Fin k)) (v : R × Nat), fin v.1 →
      (l.foldl (fun v c => if v.1 < f c then (f c, c.val) else v) v).2 =
        (l.foldl (fun v c => if v.1 < val (f c) then (val (f c), c.val) else v) (val v.1, v.2)).2 := by
    intro l
    induction l with
    | nil => intro v _; rfl
    | cons c l ih =>
      intro v hv
      rw [List.foldl_cons, List.foldl_cons]
      by_cases h : v.1 < f c
      · rw [if_pos h, if_pos (show (val v.1, v.2).1 < val (f c) from (hI.lt _ _ hv (hf c)).1 h)]
        exact ih (f c, c.val) (hf c)
      · rw [if_neg h, if_neg (show ¬ (val v.1, v.2).1 < val (f c) from fun h' => h ((hI.lt _ _ hv (hf c)).2 h'))]
        exact ih v hv
  exact gen _ (dmin, 0) hd

/-- A run on doubles, from the centres `y`. -/
theorem run_near [DecidableLT R] [Pow R Nat] (hI : IeeeDouble fin val sqrt abs') (h1 : fin 1 ∧ val (1 : R) = 1)
    (cosd : Row R n → Row R n → R) {root : R → R} {m : Nat} (hm : 2 ≤ m) (hroot : RootRounds fin val root m)
    (hpow : PowRounds fin val m) (hk : 0 < k) (hk' : k ≤ 4294967296) (hkm : ((2 * k : Nat) : ℝ) ^ m ≤ 2 ^ (200 : Int))
    (hn' : n ≤ 4294967296) {N nt : Nat} (hn : 0 < N) (hnt : 0 < nt) (hlt : N < 4294967296) {data : Nat → Row R n}
    (hx : ∀ r, r < N → InBox fin val (2 ^ (100 : Int)) (data r))
    (hfar : FarRows k (2 ^ (-97 : Int)) (metricDist .eucl) N fun r j => val (data r j)) {s1 s2 : Nat → List Nat}
    (hkn : k * n ≤ 4294967296) (hf : Fair N nt s1 s2) {dmin : R} (hd : fin dmin)
    (hd' : val dmin ≤ 2 ^ (-1022 : Int)) {tol : R} {maxIters : Nat} {start : Start R S k n} {y : Fin k → Row R n}
    (hy : StartsFrom data N nt start y) (hyb : ∀ c, InBox fin val (2 ^ (101 : Int)) (y c)) :
    ∃ res, run root (fun x y => some (anyDist sqrt abs' cosd .eucl x y)) (frobenius sqrt) dmin data N nt m tol maxIters
        s1 s2 start = .ok res ∧
      (maxIters = 0 → res.iters = 0 ∧ res.state.centers = y) ∧
      (0 < maxIters → NearFuzzyResult fin val (metricDist .eucl) ((n + 4 : Nat) * 2 ^ (-52 : Int)) (metricSlack .eucl)
        ((k * n + 4 : Nat) * 2 ^ (-52 : Int)) (2 ^ (-520 : Int)) N m tol maxIters data y res.iters res.assign res.counts res.state.centers) := by
  rcases Nat.eq_zero_or_pos maxIters with rfl | hmi
  · refine ⟨⟨0, fun r => argmax dmin ((fun _ _ => 0 : Nat → Fin k → R) r),
      tally N fun r => argmax dmin ((fun _ _ => 0 : Nat → Fin k → R) r), ⟨y, fun _ _ => 0, fun _ _ => 0⟩⟩,
      ?_, fun _ => ⟨rfl, rfl⟩, fun h => absurd h (by omega)⟩
    unfold run
    rw [if_neg (by omega), show runInit data N nt start = .ok y from hy]
    rfl
  · obtain ⟨iters, t, st, e, h0, hle, haf, hmid, hend⟩ := loop_any (root := root)
      (dist := fun x y => some (anyDist sqrt abs' cosd .eucl x y)) (norm := frobenius sqrt) (data := data) (N := N) (nt := nt)
      (m := m) (tol := tol) (maxIters := maxIters) (s1 := s1) (s2 := s2)
      (fun y => ∀ c, InBox fin val (2 ^ (101 : Int)) (y c)) (AfterNear fin val N m data)
      (fun y s h => ⟨h.prev, h.box⟩)
      (fun i s hg => iteration_double hI h1 cosd hm hroot hpow hk hk' hkm hn' hn hnt hlt hx hfar (hf i).1 (hf i).2 s hg)
      (maxIters + 1) 1 ⟨y, fun _ _ => 0, fun _ _ => 0⟩ (by omega) le_rfl (by omega) hyb
    refine ⟨⟨iters, fun r => argmax dmin ((st (t + 1)).um r), tally N fun r => argmax dmin ((st (t + 1)).um r),
      st (t + 1)⟩, ?_, fun h => absurd h (by omega), fun _ => ⟨t, fun i => (st i).centers, fun i => (st (i + 1)).um,
        fun i => frobenius sqrt fun c j => (st (i + 1)).centers c j - (st i).centers c j,
        congrArg FState.centers h0, rfl, by omega, fun i hi => ?_, fun i hi => (haf i hi).step, hmid, ?_, ?_, fun c => tally_eq _ _ _⟩⟩
    · unfold run
      rw [if_neg (by omega), show runInit data N nt start = .ok y from hy]
      simp only
      rw [if_pos hmi, e]
    · have hbox : ∀ i, i ≤ t + 1 → ∀ c, InBox fin val (2 ^ (402 : Int)) ((st i).centers c) := by
        intro i hi c
        rcases Nat.eq_zero_or_pos i with rfl | hp
        · rw [h0]
          exact InBox.mono (hyb c) (p_le (by norm_num))
        · obtain ⟨j, rfl⟩ : ∃ j, i = j + 1 := ⟨i - 1, by omega⟩
          exact InBox.mono ((haf j (by omega)).box c) (p_le (by norm_num))
      obtain ⟨big, hbig⟩ := exists_big hI
      exact MiniBatch.frobenius_double hI hbig hkn (hbox (i + 1) (by omega)) (hbox i (by omega))
    · rcases hend with ⟨a, b⟩ | ⟨a, b, c⟩
      · exact Or.inl ⟨a, by show iters = t + 1; omega⟩
      · exact Or.inr ⟨a, by omega, c⟩
    · intro r hr
      obtain ⟨-, v, -, -, hw, -⟩ := (haf t le_rfl).step
      obtain ⟨c0, hc0⟩ := (haf t le_rfl).some r hr
      obtain ⟨c, q1, q2, q3⟩ := argmax_spec (val dmin) (fun c => val ((st (t + 1)).um r c)) c0
        (lt_of_le_of_lt hd' (lt_of_lt_of_le (zpow_lt_zpow_right₀ (by norm_num) (by norm_num)) hc0))
      exact ⟨c, (argmax_val hI hd fun c => (hw r hr c).1).trans q1, q2, q3⟩

end Run

end Knor.Fcm
