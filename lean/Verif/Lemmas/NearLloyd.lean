import Mathlib.Analysis.Real.Sqrt
import Verif.Lemmas.Rounding
import Verif.Model.DistAny
import Verif.Spec.NearLloyd

/-!
# k-means in rounded arithmetic is nearly Lloyd's algorithm
-/

namespace Knor.Spec

open Finset

variable {R F : Type _} {k n : Nat}

/-- A computed distance is within `γ`, relatively, plus `ζ` of the true one, for rows in a box, and stays
below `big`. -/
structure DistRounds [Field F] [LinearOrder F] (fin : R → Prop) (val : R → F) (B : F)
    (dist : (Fin n → R) → (Fin n → R) → R) (big : R) (dF : (Fin n → F) → (Fin n → F) → F) (γ ζ : F) :
    Prop where
  big_fin : fin big
  near : ∀ x y, InBox fin val B x → InBox fin val B y →
    fin (dist x y) ∧ val (dist x y) < val big ∧
    |val (dist x y) - dF (fun j => val (x j)) fun j => val (y j)| ≤
      γ * dF (fun j => val (x j)) (fun j => val (y j)) + ζ

/-! ### Weaker error bounds -/

section Mono

variable [Field F] [LinearOrder F] [IsStrictOrderedRing F] {fin : R → Prop} {val : R → F}

theorem NearNearest.mono {γ γ' ζ ζ' : F} (hγ : γ ≤ γ') (hζ : ζ ≤ ζ') {d : Fin k → F} (hd : ∀ c, 0 ≤ d c)
    {c : Fin k} (h : NearNearest γ ζ d c) : NearNearest γ' ζ' d c := by
  intro c'
  have := h c'
  have h1 := mul_le_mul_of_nonneg_right hγ (hd c)
  have h2 := mul_le_mul_of_nonneg_right hγ (hd c')
  nlinarith

theorem memberMean_nonneg (N : Nat) (data : Nat → Fin n → F) (a : Nat → Option (Fin k)) (c : Fin k) (j : Fin n) :
    0 ≤ memberMean N (fun r j => |data r j|) a c j := by
  unfold memberMean
  split
  · exact le_rfl
  · exact div_nonneg (Finset.sum_nonneg fun _ _ => abs_nonneg _) (Nat.cast_nonneg _)

theorem NearLloydResult.mono [Div R] [NatCast R] [LE R] {dist : (Fin n → F) → (Fin n → F) → F}
    (hd : ∀ x y, 0 ≤ dist x y) {γ γ' ζ ζ' e e' η : F} (hγ : γ ≤ γ') (hζ : ζ ≤ ζ') (he : e ≤ e') {N : Nat}
    {data : Nat → Fin n → R}
    {cents0 : Fin k → Fin n → R} {tol : R} {maxIters : Nat} {iters : Nat} {assign : Nat → Option (Fin k)}
    {counts : Fin k → Int} {cents : Fin k → Fin n → R}
    (h : NearLloydResult fin val dist γ ζ e η N data cents0 tol maxIters iters assign counts cents) :
    NearLloydResult fin val dist γ' ζ' e' η N data cents0 tol maxIters iters assign counts cents := by
  obtain ⟨m, tr, h1, h2, h3, h4, h5, h6, h7, h8, h9⟩ := h
  refine ⟨m, tr, h1, h2, ⟨h3.cents, h3.unassigned, fun i hi => ⟨?_, ?_⟩⟩, h4, h5, h6, h7, h8, ?_⟩
  · intro r hr
    obtain ⟨c, hc1, hc2⟩ := (h3.step i hi).assigned r hr
    exact ⟨c, hc1, hc2.mono hγ hζ fun _ => hd _ _⟩
  · intro c j
    refine ((h3.step i hi).means c j).trans (add_le_add (mul_le_mul_of_nonneg_right he ?_) le_rfl)
    exact memberMean_nonneg N _ _ c j
  · intro hch r hr
    obtain ⟨c, hc1, hc2⟩ := h9 hch r hr
    exact ⟨c, hc1, hc2.mono hγ hζ fun _ => hd _ _⟩

end Mono

/-! ### The error of the distances -/

section Err

variable [Zero R] [Add R] [Sub R] [Mul R] [Div R] [IntCast R] [LT R] [Field F] [LinearOrder F]
  [IsStrictOrderedRing F] {fin : R → Prop} {val : R → F} {u η M B : F} {K : Nat}

omit [LT R] [Sub R] [Mul R] in
/-- Adding up terms each of which has relative error `(1+u)^p - 1` and absolute error `ζ`. -/
theorem sum_terms (hR : Rounds fin val u η M K) (p : Nat) (t : Fin n → R) (x : Fin n → F) (X ζ : F)
    (hx : ∀ j, 0 ≤ x j ∧ x j ≤ X)
    (ht : ∀ j, fin (t j) ∧ |val (t j) - x j| ≤ ((1 + u) ^ p - 1) * x j + ζ)
    (hM : (1 + u) ^ n * (n * ((1 + u) ^ p * X + ζ)) ≤ M) :
    let s := (List.finRange n).foldl (fun s j => s + t j) 0
    fin s ∧ |val s| ≤ (1 + u) ^ n * (n * ((1 + u) ^ p * X + ζ)) ∧
    |val s - ∑ j, x j| ≤ ((1 + u) ^ (n + p) - 1) * ∑ j, x j + (1 + u) ^ n * (n * ζ) ∧
    ((∀ j, 0 ≤ val (t j)) → u ≤ 1 → 0 ≤ val s) := by
  intro s
  have hu := hR.u_nonneg
  have hp := one_le_pow_u hu p
  have hn1 := one_le_pow_u hu n
  have hta : ∀ j, |val (t j)| ≤ (1 + u) ^ p * x j + ζ := by
    intro j
    calc |val (t j)| = |(val (t j) - x j) + x j| := by congr 1; ring
      _ ≤ |val (t j) - x j| + |x j| := abs_add_le _ _
      _ ≤ (((1 + u) ^ p - 1) * x j + ζ) + x j := by
          rw [abs_of_nonneg (hx j).1]; exact add_le_add (ht j).2 le_rfl
      _ = _ := by ring
  have htX : ∀ j, |val (t j)| ≤ (1 + u) ^ p * X + ζ := fun j =>
    (hta j).trans (add_le_add (mul_le_mul_of_nonneg_left (hx j).2 (by positivity)) le_rfl)
  have hsumX : ∑ j, |val (t j)| ≤ n * ((1 + u) ^ p * X + ζ) := by
    calc _ ≤ ∑ _j : Fin n, ((1 + u) ^ p * X + ζ) := Finset.sum_le_sum fun j _ => htX j
      _ = _ := by rw [Finset.sum_const, Finset.card_univ, Fintype.card_fin, nsmul_eq_mul]
  have hlist : ∀ g : Fin n → F, ((List.finRange n).map g).sum = ∑ j, g j := fun g =>
    (Fin.sum_univ_def g).symm
  have hs : s = sumSeq ((List.finRange n).map t) := by
    unfold sumSeq
    rw [List.foldl_map]
  have hnear := near_seq hR t (fun j => val (t j)) (fun j => |val (t j)|) (m0 := 0) (List.finRange n)
    (fun j _ => ⟨(ht j).1, le_rfl, by simp⟩)
    (by
      rw [hlist, List.length_finRange, Nat.zero_add]
      exact (mul_le_mul_of_nonneg_left hsumX (by positivity)).trans hM)
  rw [hlist, hlist, List.length_finRange, Nat.zero_add, ← hs] at hnear
  have hsum : ∑ j, |val (t j)| ≤ (1 + u) ^ p * ∑ j, x j + n * ζ := by
    calc _ ≤ ∑ j, ((1 + u) ^ p * x j + ζ) := Finset.sum_le_sum fun j _ => hta j
      _ = _ := by
        rw [Finset.sum_add_distrib, ← Finset.mul_sum, Finset.sum_const, Finset.card_univ, Fintype.card_fin,
          nsmul_eq_mul]
  have hdiff : |∑ j, val (t j) - ∑ j, x j| ≤ ((1 + u) ^ p - 1) * ∑ j, x j + n * ζ := by
    rw [← Finset.sum_sub_distrib]
    calc _ ≤ ∑ j, |val (t j) - x j| := Finset.abs_sum_le_sum_abs _ _
      _ ≤ ∑ j, (((1 + u) ^ p - 1) * x j + ζ) := Finset.sum_le_sum fun j _ => (ht j).2
      _ = _ := by
        rw [Finset.sum_add_distrib, ← Finset.mul_sum, Finset.sum_const, Finset.card_univ, Fintype.card_fin,
          nsmul_eq_mul]
  refine ⟨hnear.fin, hnear.abs_le.trans (mul_le_mul_of_nonneg_left hsumX (by positivity)), ?_, ?_⟩
  · calc |val s - ∑ j, x j| = |(val s - ∑ j, val (t j)) + (∑ j, val (t j) - ∑ j, x j)| := by congr 1; ring
      _ ≤ |val s - ∑ j, val (t j)| + |∑ j, val (t j) - ∑ j, x j| := abs_add_le _ _
      _ ≤ ((1 + u) ^ n - 1) * ((1 + u) ^ p * ∑ j, x j + n * ζ) + (((1 + u) ^ p - 1) * ∑ j, x j + n * ζ) :=
          add_le_add (hnear.err.trans (mul_le_mul_of_nonneg_left hsum (by linarith))) hdiff
      _ = _ := by rw [pow_add]; ring
  · intro h0 hu1
    -- partial sums stay non-negative
    have gen : ∀ (l : List (Fin n)) (m : Nat) (s : R) (b : F), 0 ≤ val s → Near fin val u m s (val s) b →
        (1 + u) ^ (m + l.length) * (b + (l.map fun j => |val (t j)|).sum) ≤ M →
        0 ≤ val (l.foldl (fun s j => s + t j) s) := by
      intro l
      induction l with
      | nil => intro m s b h _ _; exact h
      | cons j l ih =>
        intro m s b h hn' hM'
        simp only [List.map_cons, List.sum_cons, List.length_cons, List.foldl_cons] at hM' ⊢
        have hl0 : 0 ≤ (l.map fun j => |val (t j)|).sum := by
          apply List.sum_nonneg
          intro z hz
          obtain ⟨i, _, rfl⟩ := List.mem_map.1 hz
          exact abs_nonneg _
        have hb0 : 0 ≤ b := (abs_nonneg _).trans hn'.le
        have hp1 : (1 : F) ≤ (1 + u) ^ (m + (l.length + 1)) := one_le_pow_u hu _
        have ha0 := abs_nonneg (val (t j))
        have hle : |val s + val (t j)| ≤ M := by
          refine le_trans ?_ hM'
          calc |val s + val (t j)| ≤ |val s| + |val (t j)| := abs_add_le _ _
            _ ≤ b + (|val (t j)| + (l.map fun j => |val (t j)|).sum) := by
                have := hn'.le; linarith
            _ ≤ _ := le_mul_of_one_le_left (by positivity) hp1
        obtain ⟨f, e⟩ := hR.add s (t j) hn'.fin (ht j).1 hle
        have hnn : 0 ≤ val s + val (t j) := add_nonneg h (h0 j)
        have hv : 0 ≤ val (s + t j) := by
          rw [abs_of_nonneg hnn] at e
          have := (abs_le.1 e).1
          nlinarith
        have hle2 : |val (s + t j)| ≤ (1 + u) * (b + |val (t j)|) := by
          have h1 : |val (s + t j)| ≤ (1 + u) * |val s + val (t j)| := by
            calc _ = |(val (s + t j) - (val s + val (t j))) + (val s + val (t j))| := by congr 1; ring
              _ ≤ _ := abs_add_le _ _
              _ ≤ _ := by linarith
          refine h1.trans (mul_le_mul_of_nonneg_left ((abs_add_le _ _).trans ?_) (by linarith))
          have := hn'.le; linarith
        refine ih 0 (s + t j) ((1 + u) * (b + |val (t j)|)) hv
          ⟨f, hle2, by simp⟩ ?_
        refine le_trans ?_ hM'
        have hpl : (0 : F) ≤ (1 + u) ^ l.length := by positivity
        have e1 : (1 + u) ^ (0 + l.length) * ((1 + u) * (b + |val (t j)|) + (l.map fun j => |val (t j)|).sum)
            ≤ (1 + u) ^ (l.length + 1) * (b + (|val (t j)| + (l.map fun j => |val (t j)|).sum)) := by
          rw [Nat.zero_add, pow_succ, mul_assoc]
          apply mul_le_mul_of_nonneg_left _ hpl
          nlinarith
        refine e1.trans (mul_le_mul_of_nonneg_right (pow_le_pow_right₀ (by linarith) (by omega)) (by positivity))
    refine gen (List.finRange n) 0 0 0 (by rw [hR.zero.2]) ?_ ?_
    · have := near_zero hR
      rw [hR.zero.2]
      exact this
    · rw [hlist, List.length_finRange, Nat.zero_add, zero_add]
      exact (mul_le_mul_of_nonneg_left hsumX (by positivity)).trans hM

variable (hA : RoundsAll fin val u η M K)
include hA

theorem diff_near (hB : 2 * B ≤ M) {x y : R} (hx : fin x ∧ |val x| ≤ B) (hy : fin y ∧ |val y| ≤ B) :
    fin (x - y) ∧ |val x - val y| ≤ 2 * B ∧ |val (x - y) - (val x - val y)| ≤ u * |val x - val y| ∧
    |val (x - y)| ≤ (1 + u) * |val x - val y| := by
  have h2 : |val x - val y| ≤ 2 * B := by
    calc _ ≤ |val x| + |val y| := abs_sub _ _
      _ ≤ _ := by linarith [hx.2, hy.2]
  obtain ⟨f, e⟩ := hA.sub x y hx.1 hy.1 (h2.trans hB)
  refine ⟨f, h2, e, ?_⟩
  calc |val (x - y)| = |(val (x - y) - (val x - val y)) + (val x - val y)| := by congr 1; ring
    _ ≤ _ := abs_add_le _ _
    _ ≤ _ := by linarith

/-- A squared difference. -/
theorem sqTerm_near (hB : 2 * B ≤ M) (hM : (1 + u) ^ 2 * (2 * B) ^ 2 ≤ M) {x y : R}
    (hx : fin x ∧ |val x| ≤ B) (hy : fin y ∧ |val y| ≤ B) :
    fin ((x - y) * (x - y)) ∧ (val x - val y) ^ 2 ≤ (2 * B) ^ 2 ∧ 0 ≤ val ((x - y) * (x - y)) ∧
    |val ((x - y) * (x - y)) - (val x - val y) ^ 2| ≤ ((1 + u) ^ 3 - 1) * (val x - val y) ^ 2 + η := by
  obtain ⟨f, h2, e, a⟩ := diff_near hA hB hx hy
  have hu := hA.u_nonneg
  set δ := val x - val y with hδ
  set w := val (x - y) with hw
  have hd0 := abs_nonneg δ
  have hsq : δ ^ 2 ≤ (2 * B) ^ 2 := by
    rw [← sq_abs]; exact pow_le_pow_left₀ hd0 h2 2
  have hww : |w * w| ≤ (1 + u) ^ 2 * δ ^ 2 := by
    rw [abs_mul, ← sq, ← mul_pow, ← sq_abs (_ * δ), abs_mul, abs_of_nonneg (by linarith : (0 : F) ≤ 1 + u)]
    exact pow_le_pow_left₀ (abs_nonneg _) a 2
  have hwM : |w * w| ≤ M := hww.trans ((mul_le_mul_of_nonneg_left hsq (by positivity)).trans hM)
  obtain ⟨f2, e2⟩ := hA.mul _ _ f f hwM
  refine ⟨f2, hsq, hA.sq _ f hwM, ?_⟩
  have hdiff : |w * w - δ ^ 2| ≤ ((1 + u) ^ 2 - 1) * δ ^ 2 := by
    have : w * w - δ ^ 2 = (w - δ) * (w + δ) := by ring
    rw [this, abs_mul]
    have h3 : |w + δ| ≤ (2 + u) * |δ| := by
      calc _ ≤ |w| + |δ| := abs_add_le _ _
        _ ≤ _ := by linarith
    calc _ ≤ (u * |δ|) * ((2 + u) * |δ|) := mul_le_mul e h3 (abs_nonneg _) (by positivity)
      _ = ((1 + u) ^ 2 - 1) * |δ| ^ 2 := by ring
      _ = _ := by rw [sq_abs]
  calc |val ((x - y) * (x - y)) - δ ^ 2|
      = |(val ((x - y) * (x - y)) - w * w) + (w * w - δ ^ 2)| := by congr 1; ring
    _ ≤ |val ((x - y) * (x - y)) - w * w| + |w * w - δ ^ 2| := abs_add_le _ _
    _ ≤ (u * ((1 + u) ^ 2 * δ ^ 2) + η) + ((1 + u) ^ 2 - 1) * δ ^ 2 := by
        refine add_le_add (e2.trans (add_le_add (mul_le_mul_of_nonneg_left hww hu) le_rfl)) hdiff
    _ = _ := by ring

/-- The squared Euclidean distance. -/
theorem sq_near (hB : 2 * B ≤ M)
    (hM : (1 + u) ^ 2 * (2 * B) ^ 2 ≤ M)
    (hM2 : (1 + u) ^ n * (n * ((1 + u) ^ 3 * (2 * B) ^ 2 + η)) ≤ M) {x y : Fin n → R}
    (hx : InBox fin val B x) (hy : InBox fin val B y) :
    fin (Dist.sqeuclAny x y) ∧
    |val (Dist.sqeuclAny x y)| ≤ (1 + u) ^ n * (n * ((1 + u) ^ 3 * (2 * B) ^ 2 + η)) ∧
    |val (Dist.sqeuclAny x y) - sqDistance (fun j => val (x j)) fun j => val (y j)| ≤
      ((1 + u) ^ (n + 3) - 1) * sqDistance (fun j => val (x j)) (fun j => val (y j)) + (1 + u) ^ n * (n * η) ∧
    0 ≤ val (Dist.sqeuclAny x y) := by
  have ht := fun j => sqTerm_near hA hB hM (hx j) (hy j)
  obtain ⟨h1, h2, h3, h4⟩ := sum_terms hA.toRounds 3 (fun j => (x j - y j) * (x j - y j))
    (fun j => (val (x j) - val (y j)) ^ 2) ((2 * B) ^ 2) η (fun j => ⟨sq_nonneg _, (ht j).2.1⟩)
    (fun j => ⟨(ht j).1, (ht j).2.2.2⟩) hM2
  exact ⟨h1, h2, h3, h4 (fun j => (ht j).2.2.1) hA.u_le⟩

/-- The taxicab distance. -/
theorem taxi_near {ab : R → R} (hab : ∀ x, fin x → fin (ab x) ∧ val (ab x) = |val x|) (hB : 2 * B ≤ M)
    (hM2 : (1 + u) ^ n * (n * ((1 + u) * (2 * B))) ≤ M) {x y : Fin n → R}
    (hx : InBox fin val B x) (hy : InBox fin val B y) :
    fin (Dist.taxiAny ab x y) ∧
    |val (Dist.taxiAny ab x y)| ≤ (1 + u) ^ n * (n * ((1 + u) * (2 * B))) ∧
    |val (Dist.taxiAny ab x y) - taxiDistance (fun j => val (x j)) fun j => val (y j)| ≤
      ((1 + u) ^ (n + 1) - 1) * taxiDistance (fun j => val (x j)) (fun j => val (y j)) := by
  have ht := fun j => diff_near hA hB (hx j) (hy j)
  obtain ⟨h1, h2, h3, _⟩ := sum_terms hA.toRounds 1 (fun j => ab (x j - y j))
    (fun j => |val (x j) - val (y j)|) (2 * B) 0 (fun j => ⟨abs_nonneg _, (ht j).2.1⟩)
    (fun j => ⟨(hab _ (ht j).1).1, by
      rw [(hab _ (ht j).1).2, pow_one, add_sub_cancel_left]
      have e := (abs_abs_sub_abs_le (val (x j - y j)) (val (x j) - val (y j))).trans (ht j).2.2.1
      linarith⟩)
    (by rw [pow_one, add_zero]; exact hM2)
  rw [pow_one, add_zero] at h2
  rw [mul_zero, mul_zero, add_zero] at h3
  exact ⟨h1, h2, h3⟩

theorem distRounds_sq {big : R} (hbig : fin big) (hB : 2 * B ≤ M) (hM : (1 + u) ^ 2 * (2 * B) ^ 2 ≤ M)
    (hbM : val big ≤ M) (hlt : (1 + u) ^ n * (n * ((1 + u) ^ 3 * (2 * B) ^ 2 + η)) < val big) :
    DistRounds (n := n) fin val B Dist.sqeuclAny big sqDistance ((1 + u) ^ (n + 3) - 1) ((1 + u) ^ n * (n * η)) where
  big_fin := hbig
  near := by
    intro x y hx hy
    obtain ⟨h1, h2, h3, _⟩ := sq_near hA hB hM (hlt.le.trans hbM) hx hy
    exact ⟨h1, (le_abs_self _).trans_lt (h2.trans_lt hlt), h3⟩

theorem distRounds_taxi {ab : R → R} (hab : ∀ x, fin x → fin (ab x) ∧ val (ab x) = |val x|) {big : R}
    (hbig : fin big) (hB : 2 * B ≤ M)
    (hbM : val big ≤ M) (hlt : (1 + u) ^ n * (n * ((1 + u) * (2 * B))) < val big) :
    DistRounds (n := n) fin val B (Dist.taxiAny ab) big taxiDistance ((1 + u) ^ (n + 1) - 1) 0 where
  big_fin := hbig
  near := by
    intro x y hx hy
    obtain ⟨h1, h2, h3⟩ := taxi_near hA hab hB (hlt.le.trans hbM) hx hy
    exact ⟨h1, (le_abs_self _).trans_lt (h2.trans_lt hlt), h3.trans (by rw [add_zero])⟩

end Err

/-! ### The Euclidean distance -/

theorem sqrt_near {d v γ ζ : ℝ} (hd : 0 ≤ d) (hγ : 0 ≤ γ) (hζ : 0 ≤ ζ) (h : |v - d| ≤ γ * d + ζ) :
    |√v - √d| ≤ γ * √d + √ζ := by
  have hs := Real.sqrt_nonneg d
  have hz := Real.sqrt_nonneg ζ
  have e1 := Real.mul_self_sqrt hd
  have e2 := Real.mul_self_sqrt hζ
  have h1 := abs_le.1 h
  rw [abs_le]
  constructor
  · by_cases hneg : (1 - γ) * √d - √ζ ≤ 0
    · have := Real.sqrt_nonneg v
      linarith
    · rw [not_le] at hneg
      have hγ1 : γ < 1 := by
        by_contra hc
        rw [not_lt] at hc
        nlinarith
      have : (1 - γ) * √d - √ζ ≤ √v := by
        apply Real.le_sqrt_of_sq_le
        have h2 : √ζ * √ζ ≤ (1 - γ) * √d * √ζ := mul_le_mul_of_nonneg_right (by linarith) hz
        have h3 : (1 - γ) * ((1 - γ) * d) ≤ 1 * ((1 - γ) * d) :=
          mul_le_mul_of_nonneg_right (by linarith) (mul_nonneg (by linarith) hd)
        calc ((1 - γ) * √d - √ζ) ^ 2
            = (1 - γ) * ((1 - γ) * (√d * √d)) - 2 * ((1 - γ) * √d * √ζ) + √ζ * √ζ := by ring
          _ ≤ v := by rw [e1, e2]; rw [e2] at h2; linarith
      linarith
  · have : √v ≤ (1 + γ) * √d + √ζ := by
      apply Real.sqrt_le_iff.2
      refine ⟨by positivity, ?_⟩
      have h2 : 0 ≤ 2 * ((1 + γ) * √d * √ζ) := by positivity
      have h3 : 1 * ((1 + γ) * d) ≤ (1 + γ) * ((1 + γ) * d) :=
        mul_le_mul_of_nonneg_right (by linarith) (by positivity)
      calc v ≤ (1 + γ) * d + ζ := by linarith
        _ ≤ (1 + γ) * ((1 + γ) * (√d * √d)) + 2 * ((1 + γ) * √d * √ζ) + √ζ * √ζ := by
            rw [e1, e2]; linarith
        _ = _ := by ring
    linarith

theorem distRounds_eucl [Zero R] [Add R] [Sub R] [Mul R] [Div R] [IntCast R] [LT R]
    {fin : R → Prop} {val : R → ℝ} {u η M B : ℝ} {K : Nat} (hA : RoundsAll fin val u η M K) {sqrt : R → R}
    (hsqrt : ∀ x, fin x → 0 ≤ val x → fin (sqrt x) ∧ |val (sqrt x) - √(val x)| ≤ u * √(val x)) {big : R}
    (hbig : fin big) (hB : 2 * B ≤ M) (hM : (1 + u) ^ 2 * (2 * B) ^ 2 ≤ M)
    (hM2 : (1 + u) ^ n * (n * ((1 + u) ^ 3 * (2 * B) ^ 2 + η)) ≤ M)
    (hlt : (1 + u) * √((1 + u) ^ n * (n * ((1 + u) ^ 3 * (2 * B) ^ 2 + η))) < val big) :
    DistRounds (n := n) fin val B (Dist.euclAny sqrt) big (fun x y => √(sqDistance x y)) ((1 + u) ^ (n + 4) - 1)
      ((1 + u) * √((1 + u) ^ n * (n * η))) where
  big_fin := hbig
  near := by
    intro x y hx hy
    obtain ⟨h1, h2, h3, h4⟩ := sq_near hA hB hM hM2 hx hy
    have hu := hA.u_nonneg
    obtain ⟨g1, g2⟩ := hsqrt _ h1 h4
    have hd0 : 0 ≤ sqDistance (fun j => val (x j)) (fun j => val (y j)) := Finset.sum_nonneg fun _ _ => sq_nonneg _
    have hn := sqrt_near hd0 (sub_nonneg.2 (one_le_pow_u hu (n + 3)))
      (mul_nonneg (by positivity) (mul_nonneg (by positivity) hA.eta_nonneg)) h3
    have e : Dist.euclAny sqrt x y = sqrt (Dist.sqeuclAny x y) := rfl
    rw [e]
    set v := val (Dist.sqeuclAny x y)
    set d := sqDistance (fun j => val (x j)) (fun j => val (y j))
    have hv0 := Real.sqrt_nonneg v
    refine ⟨g1, ?_, ?_⟩
    · refine lt_of_le_of_lt ?_ hlt
      have : √v ≤ √((1 + u) ^ n * (n * ((1 + u) ^ 3 * (2 * B) ^ 2 + η))) :=
        Real.sqrt_le_sqrt ((le_abs_self _).trans h2)
      have h5 := (abs_le.1 g2).2
      have h6 := mul_le_mul_of_nonneg_left this (by linarith : (0 : ℝ) ≤ 1 + u)
      linarith
    · have h5 : √v ≤ (1 + u) ^ (n + 3) * √d + √((1 + u) ^ n * (n * η)) := by
        have := (abs_le.1 hn).2; linarith
      calc |val (sqrt (Dist.sqeuclAny x y)) - √d|
          = |(val (sqrt (Dist.sqeuclAny x y)) - √v) + (√v - √d)| := by congr 1; ring
        _ ≤ _ := abs_add_le _ _
        _ ≤ u * ((1 + u) ^ (n + 3) * √d + √((1 + u) ^ n * (n * η))) +
            (((1 + u) ^ (n + 3) - 1) * √d + √((1 + u) ^ n * (n * η))) :=
            add_le_add (g2.trans (mul_le_mul_of_nonneg_left h5 hu)) hn
        _ = _ := by rw [pow_succ (1 + u) (n + 3)]; ring

end Knor.Spec

namespace Knor.Kmeans

open Knor Knor.Par Knor.Partition Knor.Spec

variable {R F : Type _} {k n : Nat} [Zero R] [Add R] [Sub R] [Mul R] [Div R] [IntCast R] [LT R] [DecidableLT R]
  [Field F] [LinearOrder F]
  [IsStrictOrderedRing F] {fin : R → Prop} {val : R → F} {u η M B : F} {K : Nat}

omit [DecidableLT R] [IsStrictOrderedRing F] in
/-- The scan over clusters only depends on the values of finite distances. -/
theorem emScan_val [DecidableLT R] (hA : RoundsAll fin val u η M K) {big : R} (hbig : fin big) {d : Fin k → R}
    (hd : ∀ c, fin (d c)) : emScan big d = emScan (val big) fun c => val (d c) := by
  have gen : ∀ (l : List (Fin k)) (s : R × Option (Fin k)), fin s.1 →
      (l.foldl (scanStep d) s).2 = (l.foldl (scanStep fun c => val (d c)) (val s.1, s.2)).2 := by
    intro l
    induction l with
    | nil => intro s _; rfl
    | cons c l ih =>
      intro s hs
      simp only [List.foldl_cons]
      have := hA.lt (d c) s.1 (hd c) hs
      by_cases h : d c < s.1
      · have e1 : scanStep d s c = (d c, some c) := by unfold scanStep; rw [if_pos h]
        have e2 : scanStep (fun c => val (d c)) (val s.1, s.2) c = (val (d c), some c) := by
          unfold scanStep; rw [if_pos (this.1 h)]
        rw [e1, e2]
        exact ih _ (hd c)
      · have e1 : scanStep d s c = s := by unfold scanStep; rw [if_neg h]
        have e2 : scanStep (fun c => val (d c)) (val s.1, s.2) c = (val s.1, s.2) := by
          unfold scanStep; rw [if_neg fun h' => h (this.2 h')]
        rw [e1, e2]
        exact ih _ hs
  exact gen _ _ hbig

/-- The centroid chosen for a row is nearly the nearest. -/
theorem scan_near (hA : RoundsAll fin val u η M K) (hk : 0 < k) {dist : Row R n → Row R n → R} {big : R}
    {dF : (Fin n → F) → (Fin n → F) → F} {γ ζ : F} (hD : DistRounds fin val B dist big dF γ ζ)
    {x : Row R n} (hx : InBox fin val B x) {cents : Fin k → Row R n} (hc : ∀ c, InBox fin val B (cents c)) :
    ∃ c, emScan big (fun c => dist x (cents c)) = some c ∧
      NearNearest γ ζ (fun c => dF (fun j => val (x j)) fun j => val (cents c j)) c := by
  have h := fun c => hD.near x (cents c) hx (hc c)
  rw [emScan_val hA hD.big_fin fun c => (h c).1]
  obtain ⟨c, hcc⟩ := emScan_exists (d := fun c => val (dist x (cents c))) (big := val big)
    ⟨⟨0, hk⟩, (h _).2.1⟩
  refine ⟨c, hcc, fun c' => ?_⟩
  have h1 := (emScan_some hcc).1 c'
  have h2 := (abs_le.1 (h c).2.2).1
  have h3 := (abs_le.1 (h c').2.2).2
  dsimp only at h1
  nlinarith

/-- Centroids and assignment after `i` iterations, in the arithmetic of `R`. -/
def trAny (dist : Row R n → Row R n → R) (big : R) (data : Nat → Row R n) (N T : Nat) (todo : Nat → List Nat)
    (cents0 : Fin k → Row R n) : Nat → Snap R k n
  | 0 => ⟨cents0, fun _ => none⟩
  | i + 1 =>
    let s := trAny dist big data N T todo cents0 i
    let a := newAssign dist big data N s.cents s.assign
    ⟨(clustersAny N T todo data a).means, a⟩

/-- What the run theorem assumes about sizes: rows at most `X`, everything at most `B`. -/
structure Sizes (fin : R → Prop) (val : R → F) (u η M X B : F) (K N nt : Nat) (data : Nat → Row R n) :
    Prop where
  n_pos : 0 < N
  nt_pos : 0 < nt
  n_lt : N < 4294967296
  n_le : N ≤ K
  rows : ∀ r, r < N → InBox fin val X (data r)
  x_le : X ≤ B
  mean_le : (1 + u) ^ (N / effThreads nt N + N % effThreads nt N + effThreads nt N + 1) * X + η ≤ B
  sum_le : (1 + u) ^ (N / effThreads nt N + N % effThreads nt N + effThreads nt N) * (N * X) ≤ M

section Run

variable {N nt : Nat} {data : Nat → Row R n} {X : F}

omit [Zero R] [Add R] [Sub R] [Mul R] [Div R] [IntCast R] [LT R] [DecidableLT R] in
theorem memberSum_abs_le (hrows : ∀ r, r < N → InBox fin val X (data r)) (a : Nat → Option (Fin k)) (c : Fin k)
    (j : Fin n) : memberSum N (fun r j => |val (data r j)|) a c j ≤ Spec.count N a c * X := by
  unfold memberSum Spec.count
  rw [← nsmul_eq_mul]
  apply Finset.sum_le_card_nsmul
  intro r hr
  exact (hrows r (Finset.mem_range.1 (Finset.mem_filter.1 hr).1) j).2

theorem count_le (a : Nat → Option (Fin k)) (c : Fin k) : Spec.count N a c ≤ N := by
  unfold Spec.count
  exact (Finset.card_filter_le _ _).trans (Finset.card_range N).le

omit [Sub R] [Mul R] [LT R] [DecidableLT R] in
theorem means_near (hR : Rounds fin val u η M K) (hS : Sizes fin val u η M X B K N nt data)
    (a : Nat → Option (Fin k)) (c : Fin k) (j : Fin n) :
    let m := clustersAny N (effThreads nt N) (threadRows N nt) data a
    (fin (m.means c j) ∧ |val (m.means c j)| ≤ B) ∧
    |val (m.means c j) - memberMean N (fun r j => val (data r j)) a c j| ≤
      ((1 + u) ^ (N / effThreads nt N + N % effThreads nt N + effThreads nt N + 1) - 1) *
        memberMean N (fun r j => |val (data r j)|) a c j + η := by
  intro m
  have hu := hR.u_nonneg
  have hX0 : 0 ≤ X := (abs_nonneg _).trans (hS.rows 0 hS.n_pos j).2
  have hsum := memberSum_abs_le hS.rows a c j
  have hle : memberSum N (fun r j => |val (data r j)|) a c j ≤ N * X :=
    hsum.trans (mul_le_mul_of_nonneg_right (by exact_mod_cast count_le a c) hX0)
  obtain ⟨h1, h2⟩ := clustersAny_near hR (split_threadRows hS.n_pos hS.nt_pos hS.n_lt) threadRows_length hS.n_le data
    (fun r hr j => (hS.rows r hr j).1) a c j
    ((mul_le_mul_of_nonneg_left hle (by positivity)).trans hS.sum_le)
  refine ⟨⟨h1, ?_⟩, h2⟩
  have ha : memberMean N (fun r j => |val (data r j)|) a c j ≤ X := by
    unfold memberMean
    split
    · exact hX0
    · rename_i h0
      rw [div_le_iff₀ (by exact_mod_cast Nat.pos_of_ne_zero h0), mul_comm]
      exact hsum
  have hm : |memberMean N (fun r j => val (data r j)) a c j| ≤
      memberMean N (fun r j => |val (data r j)|) a c j := by
    unfold memberMean
    split
    · simp
    · rw [abs_div, Nat.abs_cast]
      apply div_le_div_of_nonneg_right _ (Nat.cast_nonneg _)
      exact Finset.abs_sum_le_sum_abs _ _
  have hp := one_le_pow_u hu (N / effThreads nt N + N % effThreads nt N + effThreads nt N + 1)
  set e := (1 + u) ^ (N / effThreads nt N + N % effThreads nt N + effThreads nt N + 1) with he
  refine le_trans ?_ hS.mean_le
  calc |val (m.means c j)| = |(val (m.means c j) - memberMean N (fun r j => val (data r j)) a c j) +
          memberMean N (fun r j => val (data r j)) a c j| := by congr 1; ring
    _ ≤ _ := abs_add_le _ _
    _ ≤ ((e - 1) * memberMean N (fun r j => |val (data r j)|) a c j + η) +
        memberMean N (fun r j => |val (data r j)|) a c j := add_le_add h2 hm
    _ = e * memberMean N (fun r j => |val (data r j)|) a c j + η := by ring
    _ ≤ _ := add_le_add (mul_le_mul_of_nonneg_left ha (by positivity)) le_rfl

variable {dist : Row R n → Row R n → R} {big : R} {dF : (Fin n → F) → (Fin n → F) → F} {γ ζ : F}
  {cents0 : Fin k → Row R n}

/-- The trace of the run. -/
abbrev trRun (dist : Row R n → Row R n → R) (big : R) (data : Nat → Row R n) (N nt : Nat)
    (cents0 : Fin k → Row R n) : Nat → Snap R k n :=
  trAny dist big data N (effThreads nt N) (threadRows N nt) cents0

omit [Sub R] [Mul R] in
theorem trRun_box (hR : Rounds fin val u η M K) (hS : Sizes fin val u η M X B K N nt data)
    (h0 : ∀ c, InBox fin val B (cents0 c)) :
    ∀ i c, InBox fin val B ((trRun dist big data N nt cents0 i).cents c)
  | 0, c => h0 c
  | _ + 1, c => fun j => (means_near hR hS _ c j).1

omit [Zero R] [Add R] [Sub R] [Mul R] [Div R] [IntCast R] [LT R] [DecidableLT R] [IsStrictOrderedRing F] in
theorem InBox.mono {x : Row R n} (h : InBox fin val X x) (hX : X ≤ B) : InBox fin val B x :=
  fun j => ⟨(h j).1, (h j).2.trans hX⟩

theorem trRun_scan (hA : RoundsAll fin val u η M K) (hk : 0 < k) (hD : DistRounds fin val B dist big dF γ ζ)
    (hS : Sizes fin val u η M X B K N nt data) (h0 : ∀ c, InBox fin val B (cents0 c)) (i r : Nat) (hr : r < N) :
    ∃ c, emScan big (fun c => dist (data r) ((trRun dist big data N nt cents0 i).cents c)) = some c ∧
      NearNearest γ ζ (fun c => dF (fun j => val (data r j)) fun j =>
        val ((trRun dist big data N nt cents0 i).cents c j)) c :=
  scan_near hA hk hD (InBox.mono (hS.rows r hr) hS.x_le) (trRun_box hA.toRounds hS h0 i)

/-- The values of a snapshot. -/
def snapVal (val : R → F) (s : Snap R k n) : Snap F k n := ⟨fun c j => val (s.cents c j), s.assign⟩

theorem trRun_step (hA : RoundsAll fin val u η M K) (hk : 0 < k) (hD : DistRounds fin val B dist big dF γ ζ)
    (hS : Sizes fin val u η M X B K N nt data) (h0 : ∀ c, InBox fin val B (cents0 c)) (i : Nat) :
    NearLloydStep dF γ ζ ((1 + u) ^ (N / effThreads nt N + N % effThreads nt N + effThreads nt N + 1) - 1) η N
      (fun r j => val (data r j)) (snapVal val (trRun dist big data N nt cents0 i))
      (snapVal val (trRun dist big data N nt cents0 (i + 1))) where
  assigned := by
    intro r hr
    obtain ⟨c, h1, h2⟩ := trRun_scan hA hk hD hS h0 i r hr
    refine ⟨c, ?_, h2⟩
    change newAssign dist big data N _ _ r = some c
    unfold newAssign
    rw [if_pos hr]
    exact h1
  means := fun c j => (means_near hA.toRounds hS _ c j).2

/-- The state agrees with the trace after `i` iterations. -/
structure At (dist : Row R n → Row R n → R) (big : R) (data : Nat → Row R n) (N nt : Nat)
    (cents0 : Fin k → Row R n) (i : Nat) (s : KState R k n) : Prop where
  means : s.cltrs.means = (trRun dist big data N nt cents0 i).cents
  later : i ≠ 0 → s.assign = (trRun dist big data N nt cents0 i).assign ∧
    (∀ c, s.counts c = (Spec.count N (trRun dist big data N nt cents0 i).assign c : Int)) ∧
    s.changed = numChanged N (trRun dist big data N nt cents0 (i - 1)).assign
      (trRun dist big data N nt cents0 i).assign

theorem loop_trace (hA : RoundsAll fin val u η M K) (hk : 0 < k) (hD : DistRounds fin val B dist big dF γ ζ)
    (hS : Sizes fin val u η M X B K N nt data) (h0 : ∀ c, InBox fin val B (cents0 c))
    [NatCast R] [LE R] [DecidableLE R] (tol : R) (maxIters : Nat) (sched : Nat → List Nat)
    (hc : ∀ i, Complete (effThreads nt N) (threadRows N nt) (sched i)) (hm : 0 < maxIters) :
    let tr := trRun dist big data N nt cents0
    let stops := fun i => convTest N tol (numChanged N (tr (i - 1)).assign (tr i).assign)
    ∀ fuel i (s : KState R k n), maxIters < i + fuel → i ≤ maxIters → At dist big data N nt cents0 i s →
      (∀ j, 1 ≤ j → j ≤ i → stops j = false) →
      ∃ res m, loop dist big data N nt tol maxIters sched fuel (i + 1) s = .ok res ∧ 1 ≤ m ∧ m ≤ maxIters ∧
        At dist big data N nt cents0 m res.state ∧ (∀ j, 1 ≤ j → j < m → stops j = false) ∧
        (stops m = true ∧ res.iters = m ∨ stops m = false ∧ m = maxIters ∧ res.iters = maxIters + 1) := by
  intro tr stops fuel
  induction fuel with
  | zero => intro i s h h'; omega
  | succ fuel ih =>
    intro i s hf hi hat hns
    unfold loop
    by_cases hg : i + 1 ≤ maxIters
    · rw [if_pos ⟨hg, hm⟩]
      dsimp only
      set s1 : KState R k n := if i + 1 = 1 then { s with assign := fun _ => none } else s with hs1
      have hmeans : s1.cltrs.means = (tr i).cents := by
        rw [hs1]; split <;> exact hat.means
      have hassign : s1.assign = (tr i).assign := by
        rw [hs1]
        split
        · have : i = 0 := by omega
          subst this; rfl
        · exact (hat.later (by omega)).1
      have hit := iteration_scan (s := s1) hS.n_pos hS.nt_pos hS.n_lt (hc (i + 1)) (dist := dist) (big := big)
        (data := data) (fun r hr => by
          rw [hmeans]
          obtain ⟨c, h1, _⟩ := trRun_scan hA hk hD hS h0 i r hr
          exact ⟨c, h1⟩)
      rw [hmeans, hassign] at hit
      rw [hit]
      dsimp only
      set s2 : KState R k n :=
        { cltrs := clustersAny N (effThreads nt N) (threadRows N nt) data
            (newAssign dist big data N (tr i).cents (tr i).assign)
          assign := newAssign dist big data N (tr i).cents (tr i).assign
          counts := fun c => (Spec.count N (newAssign dist big data N (tr i).cents (tr i).assign) c : Int)
          changed := numChanged N (tr i).assign (newAssign dist big data N (tr i).cents (tr i).assign) } with hs2
      have hat2 : At dist big data N nt cents0 (i + 1) s2 := ⟨rfl, fun _ => ⟨rfl, fun _ => rfl, rfl⟩⟩
      have hst : stops (i + 1) = convTest N tol s2.changed := rfl
      by_cases hcv : convTest N tol s2.changed = true
      · rw [if_pos hcv]
        refine ⟨_, i + 1, rfl, by omega, hg, hat2, fun j h1 h2 => hns j h1 (by omega), Or.inl ⟨?_, rfl⟩⟩
        rw [hst]; exact hcv
      · rw [if_neg hcv]
        refine ih (i + 1) s2 (by omega) hg hat2 fun j h1 h2 => ?_
        by_cases hj : j = i + 1
        · subst hj; rw [hst]; simpa using hcv
        · exact hns j h1 (by omega)
    · rw [if_neg fun h => hg h.1]
      have : i = maxIters := by omega
      subst this
      exact ⟨_, i, rfl, hm, le_rfl, hat, fun j h1 h2 => hns j h1 (by omega),
        Or.inr ⟨hns i hm le_rfl, rfl, rfl⟩⟩

/-- If no row changed its cluster the centroids did not change either. -/
theorem trRun_fixed (hA : RoundsAll fin val u η M K) (hk : 0 < k) (hD : DistRounds fin val B dist big dF γ ζ)
    (hS : Sizes fin val u η M X B K N nt data) (h0 : ∀ c, InBox fin val B (cents0 c)) {m : Nat} (hm : 1 ≤ m)
    (h : numChanged N (trRun dist big data N nt cents0 (m - 1)).assign
      (trRun dist big data N nt cents0 m).assign = 0) :
    (trRun dist big data N nt cents0 (m - 1)).cents = (trRun dist big data N nt cents0 m).cents := by
  obtain ⟨i, rfl⟩ : ∃ i, m = i + 1 := ⟨m - 1, by omega⟩
  rw [Nat.add_sub_cancel] at h ⊢
  have heq : ∀ r, r < N → (trRun dist big data N nt cents0 i).assign r =
      (trRun dist big data N nt cents0 (i + 1)).assign r := by
    intro r hr
    by_contra hne
    unfold numChanged at h
    rw [Finset.card_eq_zero] at h
    have : r ∈ (Finset.range N).filter fun r => (trRun dist big data N nt cents0 i).assign r ≠
        (trRun dist big data N nt cents0 (i + 1)).assign r :=
      Finset.mem_filter.2 ⟨Finset.mem_range.2 hr, hne⟩
    rw [h] at this
    simp at this
  cases i with
  | zero =>
    obtain ⟨c, h1, _⟩ := (trRun_step hA hk hD hS h0 0).assigned 0 hS.n_pos
    have e := heq 0 hS.n_pos
    have h1' : (trRun dist big data N nt cents0 (0 + 1)).assign 0 = some c := h1
    rw [h1'] at e
    cases e
  | succ i =>
    have hout : ∀ i r, ¬ r < N → (trRun dist big data N nt cents0 i).assign r = none := by
      intro i r hr
      induction i with
      | zero => rfl
      | succ i ih =>
        change newAssign dist big data N _ _ r = none
        unfold newAssign
        rw [if_neg hr]
        exact ih
    have hall : (trRun dist big data N nt cents0 (i + 1)).assign =
        (trRun dist big data N nt cents0 (i + 1 + 1)).assign := by
      funext r
      by_cases hr : r < N
      · exact heq r hr
      · rw [hout _ r hr, hout _ r hr]
    change (clustersAny N _ _ data (trRun dist big data N nt cents0 (i + 1)).assign).means =
      (clustersAny N _ _ data (trRun dist big data N nt cents0 (i + 1 + 1)).assign).means
    rw [hall]

end Run

end Knor.Kmeans
