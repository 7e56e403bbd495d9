import Verif.Lemmas.NearLloyd
import Verif.Spec.Separated
import Mathlib.Analysis.InnerProductSpace.PiL2

/-!
# Lloyd up to rounding and Lloyd agree on separated data
-/

namespace Knor.Spec

open Finset

variable {F : Type _} {k n : Nat} [Field F] [LinearOrder F] [IsStrictOrderedRing F]

omit [LinearOrder F] [IsStrictOrderedRing F] in
theorem memberMean_congr {N : Nat} {data : Nat → Fin n → F} {a b : Nat → Option (Fin k)}
    (h : ∀ r, r < N → a r = b r) (c : Fin k) (j : Fin n) : memberMean N data a c j = memberMean N data b c j := by
  have e : (range N).filter (fun r => a r = some c) = (range N).filter (fun r => b r = some c) := by
    apply Finset.filter_congr
    intro r hr
    rw [h r (Finset.mem_range.1 hr)]
  unfold memberMean memberSum count
  rw [e]

theorem memberMean_abs_le {N : Nat} {data : Nat → Fin n → F} {a : Nat → Option (Fin k)} {X : F} (hX0 : 0 ≤ X)
    (hX : ∀ r, r < N → ∀ j, |data r j| ≤ X) (c : Fin k) (j : Fin n) :
    memberMean N (fun r j => |data r j|) a c j ≤ X := by
  unfold memberMean
  split
  · exact hX0
  · rename_i h0
    rw [div_le_iff₀ (by exact_mod_cast Nat.pos_of_ne_zero h0), mul_comm]
    unfold memberSum count
    rw [← nsmul_eq_mul]
    exact Finset.sum_le_card_nsmul _ _ _ fun r hr => hX r (Finset.mem_range.1 (Finset.mem_filter.1 hr).1) j

/-- As long as the exact iterations are separated, rounded iterations make the same assignments, and their
centroids differ by one rounding of the mean only. -/
theorem near_follows {dist : (Fin n → F) → (Fin n → F) → F} {γ ζ e η Λ X : F} {N m : Nat}
    {data : Nat → Fin n → F} {cents0 : Fin k → Fin n → F} {tr tr' : Nat → Snap F k n}
    (hγ : γ ≤ 1) (hγ0 : 0 ≤ γ) (he : 0 ≤ e) (hη : 0 ≤ η) (hX0 : 0 ≤ X) (hX : ∀ r, r < N → ∀ j, |data r j| ≤ X)
    (hΛ : ∀ i, i < m → ∀ r, r < N → ∀ c, (∀ j, |(tr' i).cents c j - (tr i).cents c j| ≤ e * X + η) →
      |dist (data r) ((tr' i).cents c) - dist (data r) ((tr i).cents c)| ≤ Λ)
    (hn : NearLloydRun dist γ ζ e η N data cents0 m tr') (hl : LloydTrace dist N data cents0 tr)
    (hs : ∀ i, i < m → Separated dist γ ζ Λ N data (tr i) (tr (i + 1))) :
    ∀ i, i ≤ m → (∀ r, r < N → (tr' i).assign r = (tr i).assign r) ∧
      ∀ c j, |(tr' i).cents c j - (tr i).cents c j| ≤ e * X + η := by
  intro i
  induction i with
  | zero =>
    intro _
    refine ⟨fun r _ => by rw [hn.unassigned, hl.unassigned], fun c j => ?_⟩
    rw [hn.cents, hl.cents, sub_self, abs_zero]
    positivity
  | succ i ih =>
    intro hi
    obtain ⟨_, ih2⟩ := ih (by omega)
    have hassign : ∀ r, r < N → (tr' (i + 1)).assign r = (tr (i + 1)).assign r := by
      intro r hr
      obtain ⟨c, h1, h2⟩ := (hl.step i).assigned r hr
      obtain ⟨c', h3, h4⟩ := (hn.step i (by omega)).assigned r hr
      rw [h1, h3]
      by_contra hne
      have hcc : c' ≠ c := fun h => hne (by rw [h])
      have hsep := hs i (by omega) r hr c c' h1 hcc
      have hnear := h4 c
      have b1 := abs_le.1 (hΛ i (by omega) r hr c (ih2 c))
      have b2 := abs_le.1 (hΛ i (by omega) r hr c' (ih2 c'))
      dsimp only at hnear
      have g1 := mul_le_mul_of_nonneg_left
        (show dist (data r) ((tr i).cents c') - Λ ≤ dist (data r) ((tr' i).cents c') by linarith [b2.1])
        (sub_nonneg.2 hγ)
      have g2 := mul_le_mul_of_nonneg_left
        (show dist (data r) ((tr' i).cents c) ≤ dist (data r) ((tr i).cents c) + Λ by linarith [b1.2])
        (show (0 : F) ≤ 1 + γ by linarith)
      linarith
    refine ⟨hassign, fun c j => ?_⟩
    rw [(hl.step i).means c j, ← memberMean_congr hassign]
    refine ((hn.step i (by omega)).means c j).trans (add_le_add (mul_le_mul_of_nonneg_left ?_ he) le_rfl)
    exact memberMean_abs_le hX0 hX c j

/-! ### How far a distance moves with the centroid -/

omit [Field F] [LinearOrder F] [IsStrictOrderedRing F] in
theorem eucl_lip {x y y' : Fin n → ℝ} {δ : ℝ} (h : ∀ j, |y' j - y j| ≤ δ) :
    |√(sqDistance x y') - √(sqDistance x y)| ≤ √n * δ := by
  rcases Nat.eq_zero_or_pos n with h0 | hpos
  · subst h0; simp [sqDistance]
  have hδ : 0 ≤ δ := (abs_nonneg _).trans (h ⟨0, hpos⟩)
  have e : ∀ a b : Fin n → ℝ, √(sqDistance a b) = ‖(WithLp.toLp 2 a : EuclideanSpace ℝ (Fin n)) - WithLp.toLp 2 b‖ := by
    intro a b
    rw [EuclideanSpace.norm_eq]
    unfold sqDistance
    congr 1
    apply Finset.sum_congr rfl
    intro j _
    simp
  rw [e, e]
  refine (abs_norm_sub_norm_le _ _).trans ?_
  rw [sub_sub_sub_cancel_left, ← e]
  apply Real.sqrt_le_iff.2
  refine ⟨by positivity, ?_⟩
  rw [mul_pow, Real.sq_sqrt (Nat.cast_nonneg n)]
  unfold sqDistance
  calc ∑ j, (y j - y' j) ^ 2 ≤ ∑ _j : Fin n, δ ^ 2 := Finset.sum_le_sum fun j _ => by
        rw [← sq_abs, abs_sub_comm]; exact pow_le_pow_left₀ (abs_nonneg _) (h j) 2
    _ = _ := by rw [Finset.sum_const, Finset.card_univ, Fintype.card_fin, nsmul_eq_mul]

theorem taxi_lip {x y y' : Fin n → F} {δ : F} (h : ∀ j, |y' j - y j| ≤ δ) :
    |taxiDistance x y' - taxiDistance x y| ≤ n * δ := by
  unfold taxiDistance
  rw [← Finset.sum_sub_distrib]
  calc _ ≤ ∑ j, |(|x j - y' j| - |x j - y j|)| := Finset.abs_sum_le_sum_abs _ _
    _ ≤ ∑ _j : Fin n, δ := Finset.sum_le_sum fun j _ => by
        refine (abs_abs_sub_abs_le _ _).trans ?_
        rw [sub_sub_sub_cancel_left, abs_sub_comm]
        exact h j
    _ = _ := by rw [Finset.sum_const, Finset.card_univ, Fintype.card_fin, nsmul_eq_mul]

end Knor.Spec
