import Verif.Lemmas.Init
import Verif.Lemmas.Double
import Verif.Lemmas.NearLloyd
import Verif.Spec.NearStart

/-!
# The initialisations on doubles
-/

namespace Knor.Init

open Knor Knor.Spec Knor.Par

variable {R S : Type _} {k n : Nat} [Zero R] [Add R] [Sub R] [Mul R] [Div R] [IntCast R] [NatCast R] [LT R] [LE R]
  {fin : R → Prop} {val : R → ℝ} {sqrt abs' : R → R}

/-! ### Selecting a row -/

section Select

variable [DecidableLE R]

omit [DecidableLE R] in
/-- Subtracting non-negative doubles does not overflow and keeps the sign. -/
theorem sub_near (hI : IeeeDouble fin val sqrt abs') {x d : R} (hx : fin x) (hx0 : 0 ≤ val x) (hd : fin d)
    (hd0 : 0 ≤ val d) :
    fin (x - d) ∧ |val (x - d) - (val x - val d)| ≤ 2 ^ (-53 : Int) * |val x - val d| := by
  apply hI.rounds.sub x d hx hd
  have h1 := isDouble_le (hI.double x hx)
  have h2 := isDouble_le (hI.double d hd)
  rw [abs_of_nonneg hx0] at h1
  rw [abs_of_nonneg hd0] at h2
  rw [abs_le]
  constructor <;> linarith

theorem u_small : (0 : ℝ) < 2 ^ (-53 : Int) ∧ (2 : ℝ) ^ (-53 : Int) ≤ 1 / 2 := by
  constructor
  · exact p_pos _
  · have := p_le (show (-53 : Int) ≤ -1 by norm_num)
    refine this.trans (le_of_eq ?_)
    norm_num

/-- The loop that selects the row: it stops at the first row at which the running total reaches the threshold,
up to rounding; if it does not stop, the total of all weights is not larger than the threshold. -/
theorem select_near (hI : IeeeDouble fin val sqrt abs') (d : Nat → R) (m : Nat) :
    ∀ st x, fin x → 0 ≤ val x → (∀ i, i < m → fin (d (st + i)) ∧ 0 ≤ val (d (st + i))) →
    (∃ r y, select d (List.range' st m) x = (some r, y) ∧ y ≤ 0 ∧ st ≤ r ∧ r < st + m ∧
      (1 - 2 ^ (-53 : Int)) ^ (r - st) * val x ≤ ∑ i ∈ Finset.range (r - st + 1), val (d (st + i)) ∧
      (∀ j, st ≤ j → j < r → ∑ i ∈ Finset.range (j - st + 1), val (d (st + i)) ≤
        (1 + 2 ^ (-53 : Int)) ^ (j - st + 1) * val x) ∧ (0 < val x → 0 < val (d r))) ∨
    (∃ y, select d (List.range' st m) x = (none, y) ∧
      (0 < m → ∑ i ∈ Finset.range m, val (d (st + i)) < (1 + 2 ^ (-53 : Int)) ^ m * val x)) := by
  obtain ⟨v, hv, hv0, hv1⟩ : ∃ v : ℝ, (2 : ℝ) ^ (-53 : Int) = v ∧ 0 < v ∧ v ≤ 1 / 2 := ⟨_, rfl, u_small⟩
  rw [hv]
  induction m with
  | zero => intro st x _ _ _; exact Or.inr ⟨x, rfl, fun h => absurd h (lt_irrefl _)⟩
  | succ m ih =>
    intro st x hx hx0 hd
    have hd0 := hd 0 (by omega)
    rw [Nat.add_zero] at hd0
    obtain ⟨hf, he⟩ := sub_near hI hx hx0 hd0.1 hd0.2
    rw [hv] at he
    have hle : x - d st ≤ 0 ↔ val (x - d st) ≤ 0 := by rw [hI.le _ _ hf hI.zero.1, hI.zero.2]
    have hsum : ∀ q, ∑ i ∈ Finset.range (q + 1), val (d (st + i))
        = val (d st) + ∑ i ∈ Finset.range q, val (d (st + 1 + i)) := by
      intro q
      rw [Finset.sum_range_succ', Nat.add_zero, add_comm]
      congr 1
      apply Finset.sum_congr rfl
      intro i _
      congr 2
      omega
    rw [List.range'_succ]
    unfold select
    by_cases h0 : x - d st ≤ 0
    · rw [if_pos h0]
      have hneg : val x - val (d st) ≤ 0 := by
        by_contra hc
        rw [not_le] at hc
        rw [abs_of_pos hc] at he
        have := (abs_le.1 he).1
        have h2 := hle.1 h0
        nlinarith
      refine Or.inl ⟨st, x - d st, rfl, h0, le_rfl, by omega, ?_, fun j h1 h2 => by omega, fun h => by linarith⟩
      rw [Nat.sub_self, pow_zero, one_mul, Nat.zero_add, Finset.sum_range_one, Nat.add_zero]
      linarith
    · rw [if_neg h0]
      have hposv : 0 < val (x - d st) := lt_of_not_ge fun h => h0 (hle.2 h)
      have hpos : 0 < val x - val (d st) := by
        by_contra hc
        rw [not_lt] at hc
        rw [abs_of_nonpos hc] at he
        have := (abs_le.1 he).2
        nlinarith
      rw [abs_of_pos hpos] at he
      have hlo := (abs_le.1 he).1
      have hhi := (abs_le.1 he).2
      have hdn : ∀ i, i < m → fin (d (st + 1 + i)) ∧ 0 ≤ val (d (st + 1 + i)) := by
        intro i hi
        rw [show st + 1 + i = st + (i + 1) by omega]
        exact hd (i + 1) (by omega)
      have hup : ∀ q, (1 + v) ^ q * val (x - d st) + val (d st) ≤ (1 + v) ^ (q + 1) * val x := by
        intro q
        have h1 : (1 : ℝ) ≤ (1 + v) ^ q := one_le_pow₀ (by linarith)
        have h2 : val (x - d st) ≤ (1 + v) * val x - (1 + v) * val (d st) := by linarith
        have h3 := mul_le_mul_of_nonneg_left h2 (by linarith : (0 : ℝ) ≤ (1 + v) ^ q)
        have h4 : 1 * val (d st) ≤ (1 + v) ^ q * val (d st) := mul_le_mul_of_nonneg_right h1 hd0.2
        have h5 : 0 ≤ v * ((1 + v) ^ q * val (d st)) :=
          mul_nonneg hv0.le (mul_nonneg (by linarith) hd0.2)
        rw [pow_succ]
        nlinarith
      rcases ih (st + 1) (x - d st) hf hposv.le hdn with ⟨r, y, e, h1, h2, h3, h4, h5, h6⟩ | ⟨y, e, h⟩
      · refine Or.inl ⟨r, y, e, h1, by omega, by omega, ?_, ?_, fun _ => h6 hposv⟩
        · rw [hsum, show r - st = (r - (st + 1)) + 1 by omega]
          have h7 : 0 ≤ (1 - v) ^ (r - (st + 1)) := pow_nonneg (by linarith) _
          have h8 : (1 - v) ^ (r - (st + 1)) ≤ 1 := pow_le_one₀ (by linarith) (by linarith)
          have h9 : (1 - v) * val x - (1 - v) * val (d st) ≤ val (x - d st) := by linarith
          have h10 := mul_le_mul_of_nonneg_left h9 h7
          have h11 : (1 - v) ^ (r - (st + 1)) * ((1 - v) * val (d st)) ≤ 1 * (1 * val (d st)) := by
            apply mul_le_mul h8 _ (mul_nonneg (by linarith) hd0.2) (by norm_num)
            exact mul_le_mul_of_nonneg_right (by linarith) hd0.2
          rw [pow_succ]
          nlinarith
        · intro j hj1 hj2
          rw [hsum]
          by_cases hj : j = st
          · subst hj
            rw [Nat.sub_self, Finset.sum_range_zero, add_zero, Nat.zero_add, pow_one]
            nlinarith
          · have h7 := h5 j (by omega) hj2
            rw [show j - st = j - (st + 1) + 1 by omega]
            have := hup (j - (st + 1) + 1)
            linarith
      · refine Or.inr ⟨y, e, fun _ => ?_⟩
        rw [hsum]
        rcases Nat.eq_zero_or_pos m with rfl | hm
        · rw [Finset.sum_range_zero, add_zero, Nat.zero_add, pow_one]
          nlinarith
        · have := hup m
          have := h hm
          linarith

end Select

/-! ### The sum of the distances -/

omit [Sub R] [Mul R] [Div R] [IntCast R] [NatCast R] [LE R] in
/-- A pass, for any arithmetic. -/
theorem kppPass_any [DecidableLT R] {dist : Row R n → Row R n → R}
    {data : Nat → Row R n} {N T : Nat} {todo : Nat → List Nat} {sched : List Nat} {ci : Fin k}
    {s : Kpp R R k n} (hsp : Split N T todo) (hc : Complete T todo sched) :
    ∃ s', kppPass dist data T todo sched ci s = .ok (s', sumSeq ((List.range T).map fun t =>
        sumSeq ((todo t).map fun r => (s'.slots r).dist))) ∧ s'.cltrs = s.cltrs ∧
      (∀ r, r < N → s'.slots r = newSlot (dist (data r) (s.cltrs.means ci)) ci (s.slots r)) := by
  obtain ⟨q, e, h1, h2, h3⟩ := run_det (α := R)
    (f := kppRow dist data s.cltrs.means ci)
    (g := fun r m => .ok (newSlot (dist (data r) (s.cltrs.means ci)) ci m))
    (h := fun _ _ m' a => a + m'.dist) (fun r m a => rfl)
    (s0 := { mem := s.slots, acc := fun _ => (0 : R), todo := todo }) hsp hc
    (fun r _ => ⟨_, rfl⟩)
  refine ⟨{ s with slots := q.mem }, ?_, rfl, ?_⟩
  · unfold kppPass
    rw [e]
    dsimp only
    congr 2
    unfold sumSeq
    rw [List.foldl_map]
    apply List.foldl_ext
    intro a t _
    rw [h3 t, List.foldl_map]
  · intro r hr
    have := h1 r hr
    simp only [Except.ok.injEq] at this
    exact this.symm

/-- The sum of all distances. -/
theorem total_near (hI : IeeeDouble fin val sqrt abs') {N T L : Nat} {todo : Nat → List Nat} (hsp : Split N T todo)
    (hL : ∀ t, (todo t).length ≤ L) (d : Nat → R) (hd : ∀ r, r < N → fin (d r) ∧ 0 ≤ val (d r))
    (hM : (1 + 2 ^ (-53 : Int)) ^ (L + T) * ∑ r ∈ Finset.range N, val (d r) ≤ maxDouble) :
    fin (sumSeq ((List.range T).map fun t => sumSeq ((todo t).map d))) ∧
    |val (sumSeq ((List.range T).map fun t => sumSeq ((todo t).map d))) - ∑ r ∈ Finset.range N, val (d r)| ≤
      ((1 + 2 ^ (-53 : Int)) ^ (L + T) - 1) * ∑ r ∈ Finset.range N, val (d r) := by
  have e1 : ∀ f : Nat → ℝ, memberSum (k := 1) (n := 1) N (fun r _ => f r) (fun _ => some 0) 0 0 =
      ∑ r ∈ Finset.range N, f r := by
    intro f
    unfold memberSum
    rw [Finset.filter_true_of_mem fun _ _ => rfl]
  have e2 : ∑ r ∈ Finset.range N, |val (d r)| = ∑ r ∈ Finset.range N, val (d r) :=
    Finset.sum_congr rfl fun r hr => abs_of_nonneg (hd r (Finset.mem_range.1 hr)).2
  have h := Kmeans.sumAny_near hI.rounds.toRounds hsp hL (n := 1) (k := 1) (fun r _ => d r)
    (fun r hr _ => (hd r hr).1) (fun _ => some 0) 0 0 (by
      rw [e1 fun r => |val (d r)|, e2]; exact hM)
  rw [e1 fun r => val (d r), e1 fun r => |val (d r)|, e2] at h
  have e3 : Kmeans.sumAny T todo (fun r (_ : Fin 1) => d r) (fun _ => some (0 : Fin 1)) 0 0 =
      sumSeq ((List.range T).map fun t => sumSeq ((todo t).map d)) := by
    unfold Kmeans.sumAny
    simp
  rw [e3] at h
  exact ⟨h.fin, h.err⟩

/-! ### The draw -/

theorem nearest_le {x q b : ℝ} (h : NearestDouble x q) (hb : IsDouble b) (hx : x ≤ b) : q ≤ b := by
  by_contra hc
  rw [not_le] at hc
  have := h.2 b hb
  rw [abs_of_nonpos (by linarith), abs_of_nonpos (by linarith)] at this
  linarith

/-- Pure arithmetic behind `choice_near`. -/
theorem choice_arith {v w S tot p q uu P E Nv ε t : ℝ} (hv0 : 0 < v) (hv1 : v ≤ 1 / 2) (hw : 0 < w) (hS : 0 ≤ S)
    (hu0 : 0 ≤ uu) (htot : |tot - S| ≤ (P - 1) * S) (hP : P - 1 ≤ E) (hP1 : 1 ≤ P)
    (hp : |p - tot * uu| ≤ v * |tot * uu| + w) (htot0 : 0 ≤ tot) (hp0 : 0 ≤ p)
    (hq : |q - p / 2147483646| ≤ v * |p / 2147483646| + w) (hNv0 : 0 ≤ Nv) (hNv : Nv + 2 * v + E = ε)
    (hε : ε ≤ 1 / 2) (ht : t = S * uu / 2147483646) :
    (1 - ε) * t ≤ (1 - Nv) * q + 2 * w ∧ q ≤ (1 + v) ^ 2 * (P * t) + 2 * w ∧ (8 * w ≤ t → 0 < q) ∧ 0 ≤ t := by
  have hE : 0 ≤ E := by linarith
  have h1 := abs_le.1 htot
  have htu : 0 ≤ tot * uu := mul_nonneg htot0 hu0
  rw [abs_of_nonneg htu] at hp
  have hpC : 0 ≤ p / 2147483646 := by positivity
  rw [abs_of_nonneg hpC] at hq
  have h2 := abs_le.1 hp
  have h3 := abs_le.1 hq
  have ht0 : 0 ≤ t := by rw [ht]; positivity
  -- the total, as a fraction
  have hlo : (1 - E) * t ≤ tot * uu / 2147483646 := by
    rw [ht]
    have : (1 - E) * S ≤ tot := by nlinarith
    have h4 := mul_le_mul_of_nonneg_right this hu0
    have h5 : (1 - E) * (S * uu / 2147483646) = (1 - E) * S * uu / 2147483646 := by ring
    rw [h5]
    exact div_le_div_of_nonneg_right h4 (by norm_num)
  have hhi : tot * uu / 2147483646 ≤ P * t := by
    rw [ht]
    have : tot ≤ P * S := by nlinarith
    have h4 := mul_le_mul_of_nonneg_right this hu0
    have h5 : P * (S * uu / 2147483646) = P * S * uu / 2147483646 := by ring
    rw [h5]
    exact div_le_div_of_nonneg_right h4 (by norm_num)
  set y := tot * uu / 2147483646 with hy
  have hy0 : 0 ≤ y := by positivity
  have h6 : p / 2147483646 ≤ (1 + v) * y + w / 2147483646 := by
    rw [hy]
    have : p ≤ (1 + v) * (tot * uu) + w := by linarith
    have h7 := div_le_div_of_nonneg_right this (by norm_num : (0 : ℝ) ≤ 2147483646)
    refine h7.trans (le_of_eq ?_)
    ring
  have h7 : (1 - v) * y - w / 2147483646 ≤ p / 2147483646 := by
    rw [hy]
    have : (1 - v) * (tot * uu) - w ≤ p := by linarith
    have h8 := div_le_div_of_nonneg_right this (by norm_num : (0 : ℝ) ≤ 2147483646)
    refine le_trans (le_of_eq ?_) h8
    ring
  have hwC : w / 2147483646 ≤ w / 2 := by
    apply div_le_div_of_nonneg_left hw.le (by norm_num) (by norm_num)
  have hqhi : q ≤ (1 + v) ^ 2 * y + 2 * w := by
    have h8 : q ≤ (1 + v) * (p / 2147483646) + w := by linarith
    have h9 : (1 + v) * (p / 2147483646) ≤ (1 + v) * ((1 + v) * y + w / 2) :=
      mul_le_mul_of_nonneg_left (by linarith) (by linarith)
    nlinarith
  have hqlo : (1 - 2 * v) * y - 2 * w ≤ q := by
    have h8 : (1 - v) * (p / 2147483646) - w ≤ q := by linarith
    have h9 : (1 - v) * ((1 - v) * y - w / 2) ≤ (1 - v) * (p / 2147483646) :=
      mul_le_mul_of_nonneg_left (by linarith) (by linarith)
    have h10 : 0 ≤ v * v * y := by positivity
    nlinarith
  have hv2 : 0 ≤ 1 - 2 * v := by linarith
  have hqlo' : (1 - 2 * v - E) * t - 2 * w ≤ q := by
    have h8 := mul_le_mul_of_nonneg_left hlo hv2
    have h9 : 0 ≤ 2 * v * E * t := by positivity
    nlinarith
  refine ⟨?_, ?_, ?_, ht0⟩
  · have hN1 : 0 ≤ 1 - Nv := by linarith
    have h8 := mul_le_mul_of_nonneg_left hqlo' hN1
    have h9 : 0 ≤ Nv * ((2 * v + E) * t) := by positivity
    have h10 : 0 ≤ Nv * (2 * w) := by positivity
    rw [← hNv]
    nlinarith
  · refine hqhi.trans ?_
    have h8 : (1 + v) ^ 2 * y ≤ (1 + v) ^ 2 * (P * t) := mul_le_mul_of_nonneg_left hhi (by positivity)
    linarith
  · intro h8
    have h9 : (1 / 2) * t ≤ (1 - 2 * v - E) * t := mul_le_mul_of_nonneg_right (by linarith) ht0
    linarith

theorem pow_ge_sub {v : ℝ} (hv1 : v ≤ 1) (m : Nat) : 1 - m * v ≤ (1 - v) ^ m := by
  have := one_add_mul_le_pow (a := -v) (by linarith) m
  rw [show 1 + (m : ℝ) * -v = 1 - m * v by ring, show 1 + -v = 1 - v by ring] at this
  exact this

/-- The relative error of the sums of k-means++: `L` rows per thread, `T` threads, `N` rows. -/
noncomputable def drawErr (L T N : Nat) : ℝ := ((L + T + N + 2 : Nat) : ℝ) * 2 ^ (-52 : Int)

omit [Zero R] [Add R] [Sub R] [Mul R] [Div R] [IntCast R] [NatCast R] [LT R] [LE R] in
/-- The sum of all distances is far from overflow. -/
theorem dist_sum_le {N : Nat} (hN : N < 4294967296) (d : Nat → R)
    (hd : ∀ r, r < N → fin (d r) ∧ 0 ≤ val (d r) ∧ val (d r) ≤ 2 ^ (900 : Int)) :
    ∑ r ∈ Finset.range N, val (d r) ≤ 2 ^ (932 : Int) := by
  have h1 : ∑ r ∈ Finset.range N, val (d r) ≤ (Finset.range N).card • (2 : ℝ) ^ (900 : Int) :=
    Finset.sum_le_card_nsmul _ _ _ fun r hr => (hd r (Finset.mem_range.1 hr)).2.2
  rw [Finset.card_range, nsmul_eq_mul] at h1
  have h2 : (N : ℝ) ≤ 2 ^ (32 : Int) := by
    have : (N : ℝ) ≤ ((4294967296 : Nat) : ℝ) := by exact_mod_cast hN.le
    exact this.trans (le_of_eq (by norm_num))
  refine h1.trans ((mul_le_mul_of_nonneg_right h2 (p_pos _).le).trans (le_of_eq ?_))
  rw [p_mul]; norm_num

/-- The choice of the next centre, on doubles, with any computed total (`m` roundings): the assertion holds and the row
is the one that the draw stands for, up to rounding. -/
theorem choice_near_of [DecidableLE R] (hI : IeeeDouble fin val sqrt abs') {N m : Nat} (hLT : m ≤ 2 ^ 34) (hn : 0 < N)
    (hN : N < 4294967296)
    (d : Nat → R) (hd : ∀ r, r < N → fin (d r) ∧ 0 ≤ val (d r) ∧ val (d r) ≤ 2 ^ (900 : Int)) {total : R}
    (ht1 : fin total) (ht2 : |val total - ∑ r ∈ Finset.range N, val (d r)| ≤
      ((1 + 2 ^ (-53 : Int)) ^ m - 1) * ∑ r ∈ Finset.range N, val (d r)) {u : R} (hu : fin u)
    (hu0 : 0 ≤ val u) (hu1 : val u ≤ 1) :
    ∃ r y, select d (List.range N) (threshold total u) = (some r, y) ∧ y ≤ 0 ∧
      NearSampled (drawErr m 0 N) (2 ^ (-1073 : Int)) (fun r => val (d r)) N (val u) r := by
  obtain ⟨v, hv, hv0, hv1⟩ : ∃ v : ℝ, (2 : ℝ) ^ (-53 : Int) = v ∧ 0 < v ∧ v ≤ 1 / 2 := ⟨_, rfl, u_small⟩
  set S := ∑ r ∈ Finset.range N, val (d r) with hSdef
  have hS : 0 ≤ S := Finset.sum_nonneg fun r hr => (hd r (Finset.mem_range.1 hr)).2.1
  have hpw := pow_rounds (m := m) (hLT.trans (by norm_num))
  have hpN := pow_rounds (m := N) (by omega)
  have hpA := pow_rounds (m := m + N + 2) (by omega)
  rw [hv] at hpw hpN hpA
  set P := (1 + v) ^ m with hP
  have hP1 : 1 ≤ P := one_le_pow₀ (by linarith)
  rw [hv] at ht2
  have htot0 : 0 ≤ val total := by
    have := (abs_le.1 ht2).1
    have h1 : (P - 1) * S ≤ 1 * S := mul_le_mul_of_nonneg_right (by linarith [hpw.2]) hS
    linarith
  have htotM := isDouble_le (hI.double _ ht1)
  rw [abs_of_nonneg htot0] at htotM
  have hmulle : val total * val u ≤ val total := by nlinarith
  have hmul0 : 0 ≤ val total * val u := mul_nonneg htot0 hu0
  obtain ⟨hp1, hp2⟩ := hI.mul total u ht1 hu (by rw [abs_of_nonneg hmul0]; linarith)
  have hp0 := nearest_nonneg hmul0 hp2
  have hptot := nearest_le hp2 (hI.double _ ht1) hmulle
  have hperr := nearest_err (by rw [abs_of_nonneg hmul0]; linarith) hp2
  obtain ⟨hc1, hc2⟩ := hI.nat 2147483646 (by
    have : ((2147483646 : Nat) : ℝ) ≤ 2 ^ (31 : Int) := by norm_num
    rw [abs_of_nonneg (Nat.cast_nonneg _)]
    exact this.trans ((p_le (by norm_num)).trans p_le_max))
  have hcv : val ((2147483646 : Nat) : R) = 2147483646 := by
    rw [nearest_of_double hc2 (nat_isDouble (by norm_num))]; norm_num
  have hpC0 : 0 ≤ val (total * u) / 2147483646 := by positivity
  have hpCle : val (total * u) / 2147483646 ≤ val (total * u) := div_le_self hp0 (by norm_num)
  obtain ⟨hq1, hq2⟩ := hI.div (total * u) ((2147483646 : Nat) : R) hp1 hc1 (by rw [hcv]; norm_num) (by
    rw [hcv, abs_of_nonneg hpC0]; linarith)
  rw [hcv] at hq2
  have hq0 := nearest_nonneg hpC0 hq2
  have hqerr := nearest_err (by rw [abs_of_nonneg hpC0]; linarith) hq2
  have hq2p : val (total * u / ((2147483646 : Nat) : R)) ≤ 2 * (val (total * u) / 2147483646) := by
    have := hq2.2 0 isDouble_zero
    rw [sub_zero, abs_of_nonneg hpC0] at this
    have := (abs_le.1 this).1
    linarith
  have ethr : threshold total u = total * u / ((2147483646 : Nat) : R) := rfl
  rw [← ethr] at hq1 hq2 hq0 hqerr hq2p
  rw [hv] at hperr hqerr
  obtain ⟨w, hw, hw0⟩ : ∃ w : ℝ, (2 : ℝ) ^ (-1075 : Int) = w ∧ 0 < w := ⟨_, rfl, p_pos _⟩
  rw [hw] at hperr hqerr
  have hω : (2 : ℝ) ^ (-1073 : Int) = 4 * w := by
    rw [← hw, show (-1073 : Int) = 2 + -1075 by norm_num, zpow_add₀ (by norm_num)]; norm_num
  have h52 : (2 : ℝ) ^ (-52 : Int) = 2 * v := by
    rw [← hv, show (-52 : Int) = 1 + -53 by norm_num, zpow_add₀ (by norm_num)]; norm_num
  rw [h52] at hpw hpN hpA
  have hdE : drawErr m 0 N = ((m + N + 2 : Nat) : ℝ) * (2 * v) := by unfold drawErr; rw [h52]; push_cast; ring
  have hle12 : ((m + N + 2 : Nat) : ℝ) * (2 * v) ≤ 1 / 2 := by
    have h1 : ((m + N + 2 : Nat) : ℝ) ≤ 2 ^ (36 : Int) := by
      have : ((m + N + 2 : Nat) : ℝ) ≤ ((2 ^ 36 : Nat) : ℝ) := by
        exact_mod_cast (show m + N + 2 ≤ 2 ^ 36 by omega)
      exact this.trans (le_of_eq (by norm_num))
    rw [← h52]
    refine (mul_le_mul_of_nonneg_right h1 (p_pos _).le).trans ?_
    rw [p_mul]
    refine (p_le (show (36 + -52 : Int) ≤ -1 by norm_num)).trans (le_of_eq (by norm_num))
  have hNn : (0 : ℝ) ≤ N := Nat.cast_nonneg N
  -- the errors that `choice_arith` speaks of, and what is left over
  set Nv : ℝ := N * (2 * v) + 2 * v with hNvdef
  have hNv : Nv + 2 * v + (m : ℝ) * (2 * v) = drawErr m 0 N := by
    rw [hdE, hNvdef]; push_cast; ring
  obtain ⟨a1, a2, a3, a4⟩ := choice_arith (t := S * val u / 2147483646) hv0 hv1 hw0 hS hu0 ht2 hpw.1 hP1 hperr
    htot0 hp0 hqerr (by positivity) hNv (by rw [hdE]; exact hle12) rfl
  rcases select_near hI d N 0 (threshold total u) hq1 hq0 (fun i hi => by
      rw [Nat.zero_add]; exact ⟨(hd i hi).1, (hd i hi).2.1⟩) with ⟨r, y, e, h1, _, h3, h4, h5, h6⟩ | ⟨y, e, h⟩
  · rw [← List.range_eq_range'] at e
    simp only [Nat.sub_zero, Nat.zero_add] at h3 h4 h5
    rw [hv] at h4 h5
    refine ⟨r, y, e, h1, h3, ?_, ?_, ?_⟩
    · rw [hω]
      refine a1.trans ?_
      have h7 : (1 - Nv) * val (threshold total u) ≤ (1 - v) ^ r * val (threshold total u) := by
        apply mul_le_mul_of_nonneg_right _ hq0
        refine le_trans ?_ (pow_ge_sub (by linarith) r)
        have h8 : (r : ℝ) * v ≤ N * v := mul_le_mul_of_nonneg_right (by exact_mod_cast h3.le) hv0.le
        have h9 : 0 ≤ (N : ℝ) * v := by positivity
        rw [hNvdef]
        linarith
      linarith
    · intro j hj
      refine (h5 j (Nat.zero_le _) hj).trans ?_
      have h7 : (1 + v) ^ (j + 1) ≤ (1 + v) ^ N := pow_le_pow_right₀ (by linarith) (by omega)
      have h8 : (1 + v) ^ (j + 1) * val (threshold total u) ≤
          (1 + v) ^ N * ((1 + v) ^ 2 * (P * (S * val u / 2147483646)) + 2 * w) :=
        mul_le_mul h7 a2 hq0 (by positivity)
      have h9 : (1 + v) ^ N * ((1 + v) ^ 2 * (P * (S * val u / 2147483646)) + 2 * w) =
          (1 + v) ^ (m + N + 2) * (S * val u / 2147483646) + (1 + v) ^ N * (2 * w) := by
        rw [hP]; ring
      have h10 : (1 + v) ^ N * (2 * w) ≤ 2 * (2 * w) := mul_le_mul_of_nonneg_right hpN.2 (by positivity)
      have h11 : (1 + v) ^ (m + N + 2) * (S * val u / 2147483646) ≤
          (1 + drawErr m 0 N) * (S * val u / 2147483646) := by
        apply mul_le_mul_of_nonneg_right _ a4
        rw [hdE]
        linarith [hpA.1]
      rw [hω]
      linarith
    · rw [hω]
      intro h7
      exact h6 (a3 (by linarith))
  · exfalso
    have h7 := h hn
    simp only [Nat.zero_add] at h7
    rw [hv] at h7
    have h8 : (1 + v) ^ N * val (threshold total u) ≤ 2 * (2 * (val total / 2147483646)) := by
      refine mul_le_mul hpN.2 (hq2p.trans ?_) hq0 (by norm_num)
      have := div_le_div_of_nonneg_right hptot (by norm_num : (0 : ℝ) ≤ 2147483646)
      linarith
    have h9 : val total ≤ 2 * S := by
      have := (abs_le.1 ht2).2
      have h10 : (P - 1) * S ≤ 1 * S := mul_le_mul_of_nonneg_right (by linarith [hpw.2]) hS
      linarith
    rw [← hSdef] at h7
    have h10 : val total / 2147483646 ≤ 2 * S / 2147483646 :=
      div_le_div_of_nonneg_right h9 (by norm_num)
    have h11 : 2 * (2 * (2 * S / 2147483646)) ≤ S := by
      have : 2 * (2 * (2 * S / 2147483646)) = S * (8 / 2147483646) := by ring
      rw [this]
      nlinarith
    linarith

/-- The choice of the next centre, with a total over `T` threads. -/
theorem choice_near [DecidableLE R] (hI : IeeeDouble fin val sqrt abs') {N T L : Nat} {todo : Nat → List Nat}
    (hsp : Split N T todo) (hL : ∀ t, (todo t).length ≤ L) (hLT : L + T ≤ 2 ^ 34) (hn : 0 < N) (hN : N < 4294967296)
    (d : Nat → R) (hd : ∀ r, r < N → fin (d r) ∧ 0 ≤ val (d r) ∧ val (d r) ≤ 2 ^ (900 : Int)) {u : R} (hu : fin u)
    (hu0 : 0 ≤ val u) (hu1 : val u ≤ 1) :
    ∃ r y, select d (List.range N)
        (threshold (sumSeq ((List.range T).map fun t => sumSeq ((todo t).map d))) u) = (some r, y) ∧ y ≤ 0 ∧
      NearSampled (drawErr L T N) (2 ^ (-1073 : Int)) (fun r => val (d r)) N (val u) r := by
  have hSle := dist_sum_le hN d hd
  have hS : 0 ≤ ∑ r ∈ Finset.range N, val (d r) := Finset.sum_nonneg fun r hr => (hd r (Finset.mem_range.1 hr)).2.1
  have hpw := pow_rounds (m := L + T) (hLT.trans (by norm_num))
  obtain ⟨ht1, ht2⟩ := total_near hI hsp hL d (fun r hr => ⟨(hd r hr).1, (hd r hr).2.1⟩) (by
    refine (mul_le_mul hpw.2 hSle hS (by norm_num)).trans ?_
    have : (2 : ℝ) * 2 ^ (932 : Int) = 2 ^ (933 : Int) := by
      rw [show (933 : Int) = 1 + 932 by norm_num, zpow_add₀ (by norm_num), zpow_one]
    rw [this]
    exact (p_le (by norm_num)).trans p_le_max)
  exact choice_near_of hI hLT hn hN d hd ht1 ht2 hu hu0 hu1

end Knor.Init
