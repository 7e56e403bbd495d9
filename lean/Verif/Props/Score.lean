import Verif.Lemmas.Normal
import Verif.Lemmas.Score
import Verif.Props.Linalg
import Verif.Props.Xmeans

/-!
# C79 (the criterion of x-means), C80 (the Anderson-Darling statistic), C81 (the decision of g-means),
# and C71, C73 for runs that decide with them
-/

namespace Knor.Score

open Knor

/-! ## C79 -/

/-- **C79, as it should be**: the split of a partition into two sides with at least one row each and three
rows in all is taken back exactly if the Bayesian information criterion of the model with one cluster
exceeds that of the model with two, where the distances are squared Euclidean distances. -/
def DecidesByBic : Prop :=
  ∀ (dmin : ℝ) (ncol : Nat) (pd cd : Nat → ℝ) (ml mr : List Nat), 0 < ncol → 0 < ml.length → 0 < mr.length →
    3 ≤ ml.length + mr.length → 0 < ((ml ++ mr).map cd).sum → ((ml ++ mr).map cd).sum ≤ ((ml ++ mr).map pd).sum →
    ((bic dmin ncol ml.length mr.length pd cd ml mr).rejects ↔
      Spec.bicScore ncol [ml.length, mr.length] ((ml ++ mr).map cd).sum <
        Spec.bicScore ncol [(ml.length : ℝ) + mr.length] ((ml ++ mr).map pd).sum)

/-- **C79, partial.**  The score of the partition that is left whole is the Bayesian information criterion of
the model with one cluster.  Missing: the score of the two sides, and with it the decision
(`C79_violated`). -/
theorem C79_parent_score_partial (dmin : ℝ) (ncol : Nat) (pd cd : Nat → ℝ) (ml mr : List Nat)
    (h : 2 ≤ ml.length + mr.length) :
    (bic dmin ncol ml.length mr.length pd cd ml mr).pscore =
      Spec.bicScore ncol [(ml.length : ℝ) + mr.length] ((ml ++ mr).map pd).sum := by
  have h2 : (2 : ℝ) ≤ (ml.length : ℝ) + mr.length := by exact_mod_cast h
  unfold bic Spec.bicScore
  simp only [Int.cast_natCast, total_eq]
  rw [if_pos (by linarith)]
  simp
  ring

example : (bic 0 2 2 1 (fun r => r + 1) (fun _ => 1) [0, 1] [2]).pscore = Spec.bicScore 2 [2 + 1] 6 := by
  have := C79_parent_score_partial 0 2 (fun r => r + 1) (fun _ => 1) [0, 1] [2] (by decide)
  norm_num at this ⊢
  exact this

/-- **C79**, the score of the two sides is off by this much: each side is given the terms of all `N` rows, the
entropy of the division is missing, and the penalty for the parameters is counted twice. -/
theorem C79_limit_child_score (dmin : ℝ) (ncol : Nat) (pd cd : Nat → ℝ) (ml mr : List Nat)
    (h : 3 ≤ ml.length + mr.length) (N : ℝ) (hN : N = (ml.length : ℝ) + mr.length) :
    (bic dmin ncol ml.length mr.length pd cd ml mr).cscore =
      Spec.bicScore ncol [ml.length, mr.length] ((ml ++ mr).map cd).sum
        - (N / 2 * Real.log (2 * Real.pi) + N * ncol / 2 * Real.log (((ml ++ mr).map cd).sum / (N - 2)) + N / 2)
        + (2 * N * Real.log N - ml.length * Real.log ml.length - mr.length * Real.log mr.length)
        - (2 * ncol + 2) / 2 * Real.log N := by
  have h2 : (3 : ℝ) ≤ (ml.length : ℝ) + mr.length := by exact_mod_cast h
  subst hN
  unfold bic Spec.bicScore
  simp only [Int.cast_natCast, total_eq]
  rw [if_pos (by linarith)]
  simp only [List.sum_cons, List.sum_nil, List.map_cons, List.map_nil, List.length_cons, List.length_nil]
  norm_num
  ring

example : (bic 0 2 2 1 (fun _ => 1) (fun r => r + 1) [0, 1] [2]).cscore =
    Spec.bicScore 2 [2, 1] 6 - (3 / 2 * Real.log (2 * Real.pi) + 3 * Real.log 6 + 3 / 2) +
      (6 * Real.log 3 - 2 * Real.log 2) - 3 * Real.log 3 := by
  have := C79_limit_child_score 0 2 (fun _ => 1) (fun r => r + 1) [0, 1] [2] (by decide) 3 (by norm_num)
  norm_num at this ⊢
  exact this

/-- **C79**, what the code does instead: the decision depends on the unit of measurement.  For every
partition of at least three rows with positive sums of distances there is a factor such that the split is
taken back if all distances are multiplied by a larger factor, and kept otherwise. -/
theorem C79_limit_unit_decides (dmin : ℝ) (ncol : Nat) (nl nr : Int) (pd cd : Nat → ℝ) (ml mr : List Nat)
    (hcol : 0 < ncol) (hN : 3 ≤ nl + nr) (hp : 0 < ((ml ++ mr).map pd).sum) (hc : 0 < ((ml ++ mr).map cd).sum) :
    ∃ θ : ℝ, 0 < θ ∧ ∀ s : ℝ, 0 < s →
      ((bic dmin ncol nl nr (fun r => s * pd r) (fun r => s * cd r) ml mr).rejects ↔ θ < s) := by
  obtain ⟨ep, ec⟩ := bic_scores dmin ncol nl nr pd cd ml mr hN
  have hN' : (3 : ℝ) ≤ ((nl + nr : Int) : ℝ) := by exact_mod_cast hN
  have hcol' : (0 : ℝ) < ncol := by exact_mod_cast hcol
  rw [← total_eq] at hp hc
  generalize hNe : ((nl + nr : Int) : ℝ) = N at ep ec hN'
  have hpos : 0 < N * ncol / 2 := by have : 0 < N := by linarith
                                     positivity
  refine ⟨Real.exp (((bic dmin ncol nl nr pd cd ml mr).cscore - (bic dmin ncol nl nr pd cd ml mr).pscore) /
    (N * ncol / 2)), Real.exp_pos _, ?_⟩
  intro s hs
  obtain ⟨ep', ec'⟩ := bic_scores dmin ncol nl nr (fun r => s * pd r) (fun r => s * cd r) ml mr hN
  rw [hNe] at ep' ec'
  rw [total_mul, mul_div_assoc s (total pd ml mr) (N - 1), Real.log_mul hs.ne' (by
    have : 0 < N - 1 := by linarith
    positivity)] at ep'
  rw [total_mul, mul_div_assoc s (total cd ml mr) (N - 2), Real.log_mul hs.ne' (by
    have : 0 < N - 2 := by linarith
    positivity)] at ec'
  unfold SplitScore.rejects
  rw [← Real.lt_log_iff_exp_lt hs, div_lt_iff₀ hpos, ep', ec', ep, ec]
  constructor <;> intro h <;> nlinarith

/-- Three rows in the plane, two on one side. -/
example : ∃ θ : ℝ, 0 < θ ∧ ∀ s : ℝ, 0 < s →
    ((bic 0 2 2 1 (fun _ => s * 4) (fun _ => s * 1) [0, 1] [2]).rejects ↔ θ < s) :=
  C79_limit_unit_decides 0 2 2 1 (fun _ => 4) (fun _ => 1) [0, 1] [2] (by decide) (by decide) (by norm_num)
    (by norm_num)

/-- A change of unit shifts the criterion of every model by the same amount. -/
theorem bicScore_unit (M : ℝ) (sizes : List ℝ) (W s : ℝ) (hs : 0 < s) (hW : 0 < W)
    (hR : 0 < sizes.sum - sizes.length) :
    Spec.bicScore M sizes (s * W) = Spec.bicScore M sizes W - sizes.sum * M / 2 * Real.log s := by
  have hl : Real.log (s * W / (sizes.sum - sizes.length)) = Real.log s + Real.log (W / (sizes.sum - sizes.length)) := by
    rw [mul_div_assoc, Real.log_mul hs.ne' (by positivity)]
  unfold Spec.bicScore
  dsimp only
  rw [hl]
  generalize Real.log (W / (sizes.sum - sizes.length)) = lv
  generalize Real.log sizes.sum = lr
  generalize (sizes.length : ℝ) = K
  have : ∀ l : List ℝ, (l.map fun Rn => -(Rn / 2) * Real.log (2 * Real.pi) - Rn * M / 2 * (Real.log s + lv) -
      (Rn - K) / 2 + Rn * Real.log Rn - Rn * lr).sum = (l.map fun Rn => -(Rn / 2) * Real.log (2 * Real.pi) -
      Rn * M / 2 * lv - (Rn - K) / 2 + Rn * Real.log Rn - Rn * lr).sum - l.sum * M / 2 * Real.log s := by
    intro l
    induction l with
    | nil => simp
    | cons x l ih => simp only [List.map_cons, List.sum_cons, ih]; ring
  rw [this]
  ring

/-- **C79 is violated**: the criterion does not depend on the unit of measurement, the decision does. -/
theorem C79_violated : ¬ DecidesByBic := by
  intro h
  obtain ⟨θ, h0, hθ⟩ := C79_limit_unit_decides 0 1 2 2 (fun _ => 1) (fun _ => 1) [0, 1] [2, 3] (by decide) (by decide)
    (by norm_num) (by norm_num)
  have key : ∀ s : ℝ, 0 < s → (θ < s ↔ Spec.bicScore 1 [2, 2] 4 < Spec.bicScore 1 [4] 4) := by
    intro s hs
    rw [← hθ s hs]
    have := h 0 1 (fun _ => s * 1) (fun _ => s * 1) [0, 1] [2, 3] (by decide) (by decide) (by decide) (by decide)
      (by norm_num; linarith) le_rfl
    have e : ((([0, 1] : List Nat) ++ [2, 3]).map fun _ => s * 1).sum = s * 4 := by norm_num; ring
    rw [e] at this
    have e1 := bicScore_unit 1 [2, 2] 4 s hs (by norm_num) (by norm_num)
    have e2 := bicScore_unit 1 [4] 4 s hs (by norm_num) (by norm_num)
    norm_num at this e1 e2 ⊢
    rw [this, e1, e2]
    constructor <;> intro h <;> linarith
  have h1 := (key (2 * θ) (by linarith)).1 (by linarith)
  have h2 := (key (θ / 2) (by linarith)).2 h1
  linarith

/-- **C79**, what the code does instead: how the rows are divided between the two sides has no influence. -/
theorem C79_limit_sizes_ignored (dmin : ℝ) (ncol : Nat) (nl nr nl' nr' : Int) (pd cd : Nat → ℝ) (ml mr : List Nat)
    (h : nl + nr = nl' + nr') :
    bic dmin ncol nl nr pd cd ml mr = bic dmin ncol nl' nr' pd cd ml mr := by
  have h' : (nl : ℝ) + nr = (nl' : ℝ) + nr' := by exact_mod_cast h
  unfold bic
  dsimp only
  rw [h']
  split
  · split
    · congr 1
      have : (nr : ℝ) = (nl' : ℝ) + nr' - nl := by linarith
      rw [this]
      ring
    · rfl
  · split
    · congr 1
      have : (nr : ℝ) = (nl' : ℝ) + nr' - nl := by linarith
      rw [this]
      ring
    · rfl

example (pd cd : Nat → ℝ) : bic 0 2 1 5 pd cd [0] [1, 2, 3, 4, 5] = bic 0 2 3 3 pd cd [0] [1, 2, 3, 4, 5] :=
  C79_limit_sizes_ignored 0 2 1 5 3 3 pd cd _ _ (by decide)

/-! ## C71 with the criterion -/

theorem bicRejected_ok {R : Type _} {n : Nat} (dmin : ℝ) (nrow : Nat) (pd cd : Nat → ℝ) (s : Hclust.St R n) :
    (bicRejected dmin nrow pd cd s).Nodup ∧ ∀ p ∈ bicRejected dmin nrow pd cd s, p ∈ s.keys :=
  ⟨(Hclust.nodup_keys s).filter _, fun _ hp => List.mem_of_mem_filter hp⟩

open Xmeans Hclust in
/-- **C71, partial**, for runs that decide by the criterion: whatever distances the workers record (`pd`, `cd`)
and in whatever order the partitions are treated in each round (`dec` is a permutation of the rejected ones).
Missing: smaller values of the two settings, as in `C71_xmeans_terminates_safely_partial`. -/
theorem C71_xmeans_bic_partial {R D : Type _} {n : Nat} [Field R] [LinearOrder R] [LinearOrder D] (c : Cfg R D n)
    (hs : Sane c) (hn : 0 < n) (hmin : 2 ≤ c.minSize) (hmi : 1 ≤ c.maxIters)
    (hbig : Spec.MeansWithin c.nrow c.data c.dist c.big)
    (it : HInit R n) (hit : Startable c it) (sched : Nat → Nat → List Nat)
    (hc : ∀ t i, Par.Complete (Partition.effThreads c.reqThreads c.nrow)
      (Kmeans.threadRows c.nrow c.reqThreads) (sched t i))
    (dmin : ℝ) (pd cd : Nat → St R n → Nat → ℝ) (dec : Nat → St R n → List Nat)
    (hdec : ∀ t s, (dec t s).Perm (bicRejected dmin c.nrow (pd t s) (cd t s) s))
    (fuel : Nat) (hfu : c.kmax + c.kmax / 2 ≤ fuel) :
    ∃ s, runD .x c it (fun t s => .ok (dec t s)) sched fuel = .ok (some s) ∧
      (∀ r, r < c.nrow → s.assign r < c.maxNodes) ∧ (∀ i, (s.final i).isSome → i < c.maxNodes) ∧
      ∀ ids : List Nat, ids.Nodup → (∀ i, i ∈ ids ↔ (s.final i).isSome) →
        ids.length ≤ c.kmax + c.kmax / 2 + 1 ∧
        ∃ res, result c ids s = .ok res ∧ Conserved c.nrow res := by
  obtain ⟨dec', hd, hh⟩ := runD_sim (alg := .x) (c := c) (sched := sched) (dec := fun t s => .ok (dec t s))
    (by
      intro t s rej h
      cases h
      obtain ⟨h1, h2⟩ := bicRejected_ok dmin c.nrow (pd t s) (cd t s) s
      exact ⟨(hdec t s).nodup_iff.2 h1, fun p hp => h2 p ((hdec t s).mem_iff.1 hp)⟩) it fuel
  rcases hh with hh | ⟨t', s', e, hh, _⟩
  · rw [hh]
    exact C71_xmeans_terminates_safely_partial c hs hn hmin hmi hbig it hit sched hc dec' hd fuel hfu
  · cases hh

open Xmeans Hclust in
example (pd cd : Nat → St ℚ 1 → Nat → ℝ) : ∃ s, runD .x (demoTop [0, 1, 10, 11, 20, 21, 30, 31] 4 3 2) (.forgy 0 4)
    (fun t s => .ok (bicRejected 0 8 (pd t s) (cd t s) s)) (fun _ _ => List.replicate 8 0) 6 = .ok (some s) := by
  obtain ⟨s, e, _⟩ := C71_xmeans_bic_partial (demoTop [0, 1, 10, 11, 20, 21, 30, 31] 4 3 2)
    ⟨by decide, by decide, by decide, by decide, by decide⟩ (by decide) (by decide) (by decide)
    (fun r _ a i => WithTop.coe_lt_top _) (.forgy 0 4) ⟨by decide, by decide⟩ (fun _ _ => List.replicate 8 0)
    (fun _ _ => complete_demoTop [0, 1, 10, 11, 20, 21, 30, 31] (by decide) (by decide) 4 3 2)
    0 pd cd (fun t s => bicRejected 0 8 (pd t s) (cd t s) s) (fun _ _ => .refl _) 6 (by decide)
  exact ⟨s, e⟩

/-! ## C80 -/

/-- A sample of at least two numbers has deviation zero exactly if its numbers are all the same. -/
theorem sd_eq_zero_iff (xs : List ℝ) (h : 2 ≤ xs.length) : Spec.sd xs = 0 ↔ ∀ x ∈ xs, ∀ y ∈ xs, x = y := by
  have hl : (0 : ℝ) < xs.length - 1 := by
    have : (2 : ℝ) ≤ xs.length := by exact_mod_cast h
    linarith
  have hnn : ∀ y ∈ xs.map fun x => (x - Spec.mean xs) ^ 2, (0 : ℝ) ≤ y := by
    intro y hy
    obtain ⟨x, _, rfl⟩ := List.mem_map.1 hy
    positivity
  unfold Spec.sd
  rw [Real.sqrt_eq_zero (div_nonneg (List.sum_nonneg hnn) hl.le), div_eq_zero_iff]
  constructor
  · rintro (h0 | h0)
    · have hz : ∀ x ∈ xs, x = Spec.mean xs := by
        intro x hx
        have h1 := List.single_le_sum hnn _ (List.mem_map.2 ⟨x, hx, rfl⟩)
        rw [h0] at h1
        have : (x - Spec.mean xs) ^ 2 = 0 := le_antisymm h1 (by positivity)
        have := pow_eq_zero_iff (two_ne_zero) |>.1 this
        linarith
      intro x hx y hy
      rw [hz x hx, hz y hy]
    · exact absurd h0 hl.ne'
  · intro hall
    left
    have hm : ∀ x ∈ xs, x = Spec.mean xs := by
      intro x hx
      unfold Spec.mean
      have : xs.sum = xs.length * x := by
        rw [List.eq_replicate_of_mem (a := x) (fun b hb => hall b hb x hx)]
        simp
      rw [this]
      have : (xs.length : ℝ) ≠ 0 := by linarith
      field_simp
    apply List.sum_eq_zero
    intro y hy
    obtain ⟨x, hx, rfl⟩ := List.mem_map.1 hy
    rw [← hm x hx, sub_self]
    norm_num

/-- **C80.**  For a sample of at least two numbers that are not all the same the statistic is that of
Anderson and Darling, and it is the only one. -/
theorem C80_textbook (phi : ℝ → ℝ) (xs : List ℝ) (h : ∃ x ∈ xs, ∃ y ∈ xs, x ≠ y) :
    ∃ A, statistic phi xs = some A ∧ ∀ A', Spec.IsAndersonDarling phi xs A' ↔ A' = A := by
  obtain ⟨x, hx, y, hy, hxy⟩ := h
  have hlen : 2 ≤ xs.length := by
    rcases xs with _ | ⟨a, _ | ⟨b, l⟩⟩
    · cases hx
    · simp only [List.mem_singleton] at hx hy; exact absurd (hx.trans hy.symm) hxy
    · simp
  have hsd : Spec.sd xs ≠ 0 := fun h0 => hxy ((sd_eq_zero_iff xs hlen).1 h0 x hx y hy)
  rw [statistic_eq, if_neg (by push Not; exact ⟨by omega, hsd⟩)]
  refine ⟨_, rfl, ?_⟩
  have hpl := (sorted_perm xs).length_eq
  have key : adSum phi ((sorted xs).map fun x => (x - Spec.mean xs) / Spec.sd xs) =
      -(xs.length : ℝ) - 1 / xs.length * ∑ i ∈ Finset.Icc 1 xs.length, (2 * (i : ℝ) - 1) *
        (Real.log (phi (((sorted xs).getD (i - 1) 0 - Spec.mean xs) / Spec.sd xs)) +
          Real.log (1 - phi (((sorted xs).getD (xs.length - i) 0 - Spec.mean xs) / Spec.sd xs))) := by
    rw [adSum_eq, List.length_map, hpl]
    congr 2
    rw [Finset.range_eq_Ico, Finset.sum_Ico_eq_sum_range, ← Finset.Ico_add_one_right_eq_Icc,
      Finset.sum_Ico_eq_sum_range]
    apply Finset.sum_congr (by simp)
    intro i hi
    have hi' : i < xs.length := by simpa using hi
    have g : ∀ j, j < xs.length → ((sorted xs).map fun x => (x - Spec.mean xs) / Spec.sd xs).getD j 0 =
        ((sorted xs).getD j 0 - Spec.mean xs) / Spec.sd xs := by
      intro j hj
      have hj' : j < (sorted xs).length := by rw [hpl]; exact hj
      simp [List.getD, hj']
    rw [g (0 + i) (by omega), g (xs.length - 1 - (0 + i)) (by omega)]
    rw [show 0 + i = 1 + i - 1 by omega, show xs.length - 1 - (1 + i - 1) = xs.length - (1 + i) by omega]
    congr 1
    push_cast [show 1 + i - 1 = i by omega]
    ring
  intro A'
  rw [key]
  constructor
  · rintro ⟨ys, hp, hsrt, e⟩
    rw [sorted_unique hp hsrt] at e
    exact e
  · rintro rfl
    exact ⟨sorted xs, sorted_perm xs, sorted_pairwise xs, rfl⟩

example (phi : ℝ → ℝ) : ∃ A, statistic phi [3, 1, 2] = some A ∧ ∀ A', Spec.IsAndersonDarling phi [3, 1, 2] A' ↔ A' = A :=
  C80_textbook phi [3, 1, 2] ⟨3, by simp, 1, by simp, by norm_num⟩

/-- **C80.**  There is no statistic (the code computes a NaN) exactly for samples of fewer than two numbers
and samples whose numbers are all the same. -/
theorem C80_no_statistic_iff (phi : ℝ → ℝ) (xs : List ℝ) :
    statistic phi xs = none ↔ ∀ x ∈ xs, ∀ y ∈ xs, x = y := by
  rw [statistic_eq]
  by_cases h : xs.length ≤ 1
  · rw [if_pos (Or.inl h)]
    rcases xs with _ | ⟨a, _ | ⟨b, l⟩⟩
    · simp
    · simp
    · simp at h
  · rw [← sd_eq_zero_iff xs (by omega)]
    by_cases h2 : Spec.sd xs = 0
    · simp [h2]
    · simp [h, h2]

example (phi : ℝ → ℝ) : statistic phi [3, 3, 3] = none := (C80_no_statistic_iff phi _).2 (by simp)

/-- **C80.**  The order of the sample has no influence. -/
theorem C80_order_irrelevant (phi : ℝ → ℝ) (xs ys : List ℝ) (h : ys.Perm xs) :
    statistic phi ys = statistic phi xs := by
  rw [statistic_eq, statistic_eq, sorted_congr h, h.length_eq, mean_perm h, sd_perm h]

example (phi : ℝ → ℝ) : statistic phi [3, 1, 2] = statistic phi [1, 2, 3] :=
  C80_order_irrelevant phi _ _ ((List.Perm.swap 1 3 [2]).trans (.cons 1 (.swap 2 3 [])))

/-- **C80.**  Location and unit of measurement have no influence. -/
theorem C80_unit_irrelevant (phi : ℝ → ℝ) (a b : ℝ) (ha : 0 < a) (xs : List ℝ) :
    statistic phi (xs.map fun x => a * x + b) = statistic phi xs :=
  statistic_affine phi a b ha xs

example (phi : ℝ → ℝ) : statistic phi [7, 3, 5] = statistic phi [3, 1, 2] := by
  have := C80_unit_irrelevant phi 2 1 (by norm_num) [3, 1, 2]
  norm_num at this
  exact this

/-- **C80.**  In particular the faulty standardisation before the test (C55) has no influence on its outcome. -/
theorem C80_standardising_irrelevant (phi : ℝ → ℝ) (v w : List ℝ) (h : Linalg.scale Real.sqrt v = .ok w) :
    statistic phi w = statistic phi v :=
  statistic_scale phi h

example (phi : ℝ → ℝ) : statistic phi [0, Real.sqrt 2] = statistic phi [1/2, 3/2] :=
  C80_standardising_irrelevant phi _ _ Linalg.C55_violated.1

/-- **C80.**  The statistic is never negative, for any distribution function with values strictly between
0 and 1. -/
theorem C80_nonneg (phi : ℝ → ℝ) (hphi : ∀ x, 0 < phi x ∧ phi x < 1) (xs : List ℝ) (A : ℝ)
    (h : statistic phi xs = some A) : 0 ≤ A := by
  rw [statistic_eq] at h
  split at h
  · cases h
  · rename_i hc
    cases h
    apply adSum_nonneg phi hphi
    rw [List.length_map, (sorted_perm xs).length_eq]
    push Not at hc
    omega

/-- With the normal distribution: the statistic of a concrete sample exists and is not negative. -/
example : ∃ A, statistic Phi [3, 1, 2] = some A ∧ 0 ≤ A := by
  obtain ⟨A, h, _⟩ := C80_textbook Phi [3, 1, 2]
    ⟨3, by simp, 1, by simp, by norm_num⟩
  exact ⟨A, h, C80_nonneg _ normal_between _ A h⟩

/-! ## C81 -/

/-- The projections of the rows of a partition. -/
def sample (nrow : Nat) (part : Nat → Nat) (cd : Nat → ℝ) (p : Nat) : List ℝ :=
  ((List.range nrow).filter fun r => part r = p).map cd

/-- **C81, as it should be**: with the constant `a` of the chosen level, the split of a partition whose
projections are not all the same is taken back exactly if the projections pass the test of Anderson and
Darling for the normal distribution, that is, if their statistic is at most the critical value for their
number. -/
def TestsNormality : Prop :=
  ∀ (strict nrow : Nat) (a : ℝ) (cd : Nat → ℝ) (s : Hclust.St ℝ 1) (rej : List Nat),
    avals[strict]? = some a → adRejected Phi strict nrow cd s = .ok rej →
    ∀ p ∈ s.keys, (∃ x ∈ sample nrow s.part cd p, ∃ y ∈ sample nrow s.part cd p, x ≠ y) →
    (p ∈ rej ↔ ∃ A, Spec.IsAndersonDarling Phi (sample nrow s.part cd p) A ∧
      A ≤ Spec.critical a (sample nrow s.part cd p).length)

/-- **C81, partial.**  What is decided: a split is taken back exactly if the statistic is at most the critical
value for a sample whose size is the number of different partition numbers of the rows.
Missing: the critical value for the size of the sample (`C81_violated`). -/
theorem C81_rule_partial {R : Type _} {n : Nat} (phi : ℝ → ℝ) (strict nrow : Nat) (a : ℝ) (cd : Nat → ℝ)
    (s : Hclust.St R n) (rej : List Nat) (ha : avals[strict]? = some a) (h : adRejected phi strict nrow cd s = .ok rej)
    (p : Nat) (hp : p ∈ s.keys)
    (hne : ∃ x ∈ sample nrow s.part cd p, ∃ y ∈ sample nrow s.part cd p, x ≠ y) :
    (p ∈ rej ↔ ∃ A, Spec.IsAndersonDarling phi (sample nrow s.part cd p) A ∧
      A ≤ Spec.critical a ((Finset.range nrow).image s.part).card) := by
  unfold adRejected at h
  cases e : adScores phi nrow s.part cd (adKeys nrow s.part) with
  | error x => rw [e] at h; cases h
  | ok score =>
    rw [e] at h
    dsimp only at h
    have hcard : (adKeys nrow s.part).length = ((Finset.range nrow).image s.part).card := by
      unfold adKeys
      rw [← List.toFinset_card_of_nodup (List.nodup_dedup _)]
      congr 1
      ext q
      simp
    have hcv : (criticalValues ((adKeys nrow s.part).length : ℝ))[strict]? =
        some (Spec.critical a ((Finset.range nrow).image s.part).card) := by
      unfold criticalValues Spec.critical
      rw [List.getElem?_map, ha, hcard]
      simp only [Option.map_some, pow_two]
    rw [hcv] at h
    cases h
    obtain ⟨A, hA, hu⟩ := C80_textbook phi _ hne
    have hmem : p ∈ adKeys nrow s.part := by
      obtain ⟨x, hx, _⟩ := hne
      unfold sample at hx
      obtain ⟨r, hr, _⟩ := List.mem_map.1 hx
      obtain ⟨h1, h2⟩ := List.mem_filter.1 hr
      unfold adKeys
      rw [List.mem_dedup, List.mem_map]
      exact ⟨r, h1, by simpa using h2⟩
    have hsc := adScores_eq phi nrow s.part cd _ score e p
    rw [if_pos hmem, show adVec nrow s.part cd p = sample nrow s.part cd p from rfl, hA] at hsc
    rw [List.mem_filter, hsc]
    simp only [hp, true_and, decide_eq_true_eq]
    constructor
    · intro hle; exact ⟨A, (hu A).2 rfl, hle⟩
    · rintro ⟨A', hA', hle⟩; rwa [(hu A').1 hA'] at hle

/-- **C81**, what happens instead: as long as the rows have at most three different partition numbers, as in
the first rounds of every run, no split is ever taken back, whatever the data, the level and the distribution
function. -/
theorem C81_limit_never_at_first {R : Type _} {n : Nat} (phi : ℝ → ℝ) (hphi : ∀ x, 0 < phi x ∧ phi x < 1)
    (strict nrow : Nat) (hrow : 0 < nrow) (cd : Nat → ℝ) (s : Hclust.St R n)
    (hfew : ((Finset.range nrow).image s.part).card ≤ 3) (rej : List Nat)
    (h : adRejected phi strict nrow cd s = .ok rej) : rej = [] := by
  unfold adRejected at h
  cases e : adScores phi nrow s.part cd (adKeys nrow s.part) with
  | error x => rw [e] at h; cases h
  | ok score =>
    rw [e] at h
    dsimp only at h
    have hcard : (adKeys nrow s.part).length = ((Finset.range nrow).image s.part).card := by
      unfold adKeys
      rw [← List.toFinset_card_of_nodup (List.nodup_dedup _)]
      congr 1
      ext q
      simp
    have hpos : 0 < ((Finset.range nrow).image s.part).card :=
      Finset.card_pos.2 ⟨s.part 0, Finset.mem_image_of_mem _ (Finset.mem_range.2 hrow)⟩
    rw [hcard] at h
    generalize ((Finset.range nrow).image s.part).card = m at h hpos hfew
    cases hc : (criticalValues (m : ℝ))[strict]? with
    | none => rw [hc] at h; cases h
    | some crit =>
      rw [hc] at h
      cases h
      have hneg : crit < 0 := by
        have hm := List.mem_of_getElem? hc
        unfold criticalValues at hm
        obtain ⟨a, ha, rfl⟩ := List.mem_map.1 hm
        have ha0 : 0 < a := by
          unfold avals at ha
          simp only [List.mem_cons, List.not_mem_nil, or_false] at ha
          rcases ha with rfl | rfl | rfl | rfl | rfl <;> norm_num
        apply div_neg_of_pos_of_neg ha0
        have : m = 1 ∨ m = 2 ∨ m = 3 := by omega
        rcases this with rfl | rfl | rfl <;> norm_num
      rw [List.filter_eq_nil_iff]
      intro p _
      have hsc := adScores_eq phi nrow s.part cd _ score e p
      by_cases hp : p ∈ adKeys nrow s.part
      · rw [if_pos hp] at hsc
        cases hst : statistic phi (adVec nrow s.part cd p) with
        | none => rw [hsc, hst]; simp
        | some A =>
          rw [hsc, hst]
          have := C80_nonneg phi hphi _ A hst
          simp only [decide_eq_true_eq, not_le]
          linarith
      · rw [if_neg hp] at hsc
        rw [hsc]; simp

/-- A partition 0 with all rows. -/
noncomputable def onePart : Hclust.St ℝ 1 :=
  { hc := fun i => if i = 0 then some ⟨Clusters.empty, 1, 2, false⟩ else none
    hsize := 1, active := [true, true, true], assign := fun _ => 1, part := fun _ => 0
    counts := [0, 4, 0], gen := IdGen.create, final := fun _ => none, ncl := 2 }

/-- Four projections, two at -1 and two at 1. -/
def fourRows (r : Nat) : ℝ := if r < 2 then -1 else 1

theorem sample_four : sample 4 onePart.part fourRows 0 = [-1, -1, 1, 1] := by
  show ((List.range 4).filter fun r => ((0 : Nat) = 0)).map fourRows = _
  simp [List.range_succ, fourRows]

theorem scale_four : ∃ w, Linalg.scale Real.sqrt ([-1, -1, 1, 1] : List ℝ) = .ok w := by
  obtain ⟨w, h, _⟩ := Linalg.C55_scale_partial Real.sqrt (fun x hx => Real.mul_self_sqrt hx) [-1, -1, 1, 1]
    (by decide) ⟨-1, by decide, 1, by decide, by decide⟩
  refine ⟨w, ?_⟩
  simpa using h

theorem adRejected_four (phi : ℝ → ℝ) : ∃ rej, adRejected phi 4 4 fourRows onePart = .ok rej := by
  obtain ⟨w, hw⟩ := scale_four
  have hk : adKeys 4 onePart.part = [0] := by decide
  have hv : adVec 4 onePart.part fourRows 0 = [-1, -1, 1, 1] := sample_four
  unfold adRejected
  rw [hk]
  unfold adScores
  rw [hv, hw]
  simp only [adScores]
  have : (criticalValues (([0] : List Nat).length : ℝ))[4]? = some (1092 / 1000 / (1 + 4 / 1 - 25 / (1 * 1))) := by
    unfold criticalValues avals
    simp
  rw [this]
  exact ⟨_, rfl⟩

/-- The statistic of the four numbers. -/
theorem ad_four : Spec.IsAndersonDarling Phi [-1, -1, 1, 1]
    (-4 - (2 * Real.log (1 - Phi (1 / Spec.sd [-1, -1, 1, 1])) + 6 * Real.log (Phi (1 / Spec.sd [-1, -1, 1, 1])))) := by
  refine ⟨[-1, -1, 1, 1], .refl _, by norm_num, ?_⟩
  have hm : Spec.mean [-1, -1, 1, 1] = 0 := by unfold Spec.mean; norm_num
  have hn : Phi (-1 / Spec.sd [-1, -1, 1, 1]) = 1 - Phi (1 / Spec.sd [-1, -1, 1, 1]) := by
    rw [neg_div, Phi_neg]
  simp only [hm, sub_zero, List.length_cons, List.length_nil]
  rw [show Finset.Icc 1 (0 + 1 + 1 + 1 + 1) = {1, 2, 3, 4} by decide]
  rw [Finset.sum_insert (by decide), Finset.sum_insert (by decide), Finset.sum_insert (by decide),
    Finset.sum_singleton]
  simp only [zero_add, Nat.reduceAdd, Nat.reduceSub, List.getD_cons_zero, List.getD_cons_succ]
  rw [hn, sub_sub_cancel]
  generalize Phi (1 / Spec.sd [-1, -1, 1, 1]) = p
  push_cast
  ring

/-- Their deviation is the root of 4/3. -/
theorem sd_four : Spec.sd [-1, -1, 1, 1] = Real.sqrt (4 / 3) := by
  have hm : Spec.mean [-1, -1, 1, 1] = 0 := by unfold Spec.mean; norm_num
  unfold Spec.sd
  rw [hm]
  congr 1
  norm_num

/-- **C81 is violated**: the projections -1, -1, 1, 1 of the only partition pass the test for the normal
distribution at the default level (the critical value for four numbers is 2.496), but the split is kept. -/
theorem C81_violated : ¬ TestsNormality := by
  intro h
  obtain ⟨rej, hr⟩ := adRejected_four Phi
  have hnil : rej = [] := C81_limit_never_at_first _ normal_between 4 4 (by decide) fourRows onePart
    (by rw [show (Finset.range 4).image onePart.part = {0} by decide]; decide) rej hr
  have := h 4 4 (1092 / 1000) fourRows onePart rej
    (by simp [avals]) hr 0 (by decide) (by rw [sample_four]; exact ⟨-1, by simp, 1, by simp, by norm_num⟩)
  rw [hnil, sample_four] at this
  refine absurd (this.2 ⟨_, ad_four, ?_⟩) (by simp)
  have hb := log_Phi_bound (1 / Spec.sd [-1, -1, 1, 1]) (by rw [sd_four]; positivity) (by
    rw [sd_four, div_le_iff₀ (by positivity)]
    have h1 : (1154 / 1000 : ℝ) ≤ Real.sqrt (4 / 3) := Real.le_sqrt_of_sq_le (by norm_num)
    linarith)
  unfold Spec.critical
  norm_num
  norm_num at hb
  linarith

/-- The rule for the only partition, with its four projections. -/
example (phi : ℝ → ℝ) (rej : List Nat) (h : adRejected phi 4 4 fourRows onePart = .ok rej) :
    0 ∈ rej ↔ ∃ A, Spec.IsAndersonDarling phi [-1, -1, 1, 1] A ∧ A ≤ Spec.critical (1092 / 1000) 1 := by
  have := C81_rule_partial phi 4 4 (1092 / 1000) fourRows onePart rej (by simp [avals]) h 0 (by decide)
    (by rw [sample_four]; exact ⟨-1, by simp, 1, by simp, by norm_num⟩)
  rw [sample_four, show (Finset.range 4).image onePart.part = {0} by decide] at this
  exact this

/-- And the decision is made, without an abort. -/
example : adRejected Phi 4 4 fourRows onePart = .ok [] := by
  obtain ⟨rej, hr⟩ := adRejected_four Phi
  rw [hr, C81_limit_never_at_first _ normal_between 4 4 (by decide) fourRows onePart
    (by rw [show (Finset.range 4).image onePart.part = {0} by decide]; decide) rej hr]

/-- **C81**, an abort: a partition whose projections are all the same integer fails the assertion in the
standardisation. -/
theorem C81_violated_abort (phi : ℝ → ℝ) :
    adRejected phi 4 2 (fun _ => 3) onePart = .error .assertFail := by
  have hk : adKeys 2 onePart.part = [0] := by decide
  have hv : adVec 2 onePart.part (fun _ => (3 : ℝ)) 0 = [3, 3] := by
    show ((List.range 2).filter fun r => ((0 : Nat) = 0)).map (fun _ => (3 : ℝ)) = _
    simp [List.range_succ]
  unfold adRejected
  rw [hk]
  unfold adScores
  rw [hv, Linalg.C55_limit_constant_aborts]

/-! ## C73 with the test -/

theorem adRejected_ok {R : Type _} {n : Nat} {phi : ℝ → ℝ} {strict nrow : Nat} {cd : Nat → ℝ} {s : Hclust.St R n}
    {rej : List Nat} (h : adRejected phi strict nrow cd s = .ok rej) : rej.Nodup ∧ ∀ p ∈ rej, p ∈ s.keys := by
  unfold adRejected at h
  split at h
  · cases h
  · split at h
    · cases h
    · cases h
      exact ⟨(Hclust.nodup_keys s).filter _, fun _ hp => List.mem_of_mem_filter hp⟩

/-- Standardising throws nothing. -/
theorem scale_no_throw (v : List ℝ) : Linalg.scale Real.sqrt v ≠ .error .throws := by
  have hacc : ∀ (l : List ℝ) (a : Int), Linalg.accumulateInt l a ≠ .error .throws := by
    intro l
    induction l with
    | nil => intro a; simp [Linalg.accumulateInt]
    | cons x l ih =>
      intro a
      unfold Linalg.accumulateInt
      dsimp only
      split
      · exact ih _
      · simp
  unfold Linalg.scale
  cases e : Linalg.accumulateInt v 0 with
  | error x =>
    dsimp only
    intro h
    cases h
    exact hacc v 0 e
  | ok sum =>
    dsimp only
    split <;> simp

/-- The Anderson-Darling test throws nothing. -/
theorem adScores_no_throw (phi : ℝ → ℝ) (nrow : Nat) (part : Nat → Nat) (cd : Nat → ℝ) :
    ∀ ks : List Nat, adScores phi nrow part cd ks ≠ .error .throws
  | [] => by simp [adScores]
  | k :: ks => by
    unfold adScores
    cases e : Linalg.scale Real.sqrt (adVec nrow part cd k) with
    | error x =>
      dsimp only
      intro h
      cases h
      exact scale_no_throw _ e
    | ok v =>
      dsimp only
      cases e2 : adScores phi nrow part cd ks with
      | error x =>
        dsimp only
        intro h
        cases h
        exact adScores_no_throw phi nrow part cd ks e2
      | ok f => simp

open Xmeans Hclust in
/-- **C73, partial**, for runs that decide by the test: in the first `3 K - 6` rounds nothing is thrown, and an
assertion can only fail in the test (as in `C81_violated_abort`); a run that ends within them loses no row.
Missing: the read of `C73_violated`, the abort, and later rounds. -/
theorem C73_gmeans_ad_partial {R D : Type _} {n : Nat} [Field R] [LinearOrder R] [LinearOrder D] (c : Cfg R D n)
    (hs : Sane c) (hn : 0 < n) (hmin : 2 ≤ c.minSize) (hmi : 1 ≤ c.maxIters)
    (hbig : Spec.MeansWithin c.nrow c.data c.dist c.big)
    (it : HInit R n) (hit : Startable c it) (sched : Nat → Nat → List Nat)
    (hc : ∀ t i, Par.Complete (Partition.effThreads c.reqThreads c.nrow)
      (Kmeans.threadRows c.nrow c.reqThreads) (sched t i))
    (phi : ℝ → ℝ) (strict : Nat) (cd : Nat → St R n → Nat → ℝ)
    (fuel : Nat) (hfu : fuel + 6 ≤ 3 * hclustFloor c.kmax) :
    (runD .g c it (fun t s => adRejected phi strict c.nrow (cd t s) s) sched fuel = .error .assertFail →
      ∃ t s, adRejected phi strict c.nrow (cd t s) (s : St R n) = .error .assertFail) ∧
    runD .g c it (fun t s => adRejected phi strict c.nrow (cd t s) s) sched fuel ≠ .error .throws ∧
    ∀ s, runD .g c it (fun t s => adRejected phi strict c.nrow (cd t s) s) sched fuel = .ok (some s) →
      (∀ r, r < c.nrow → s.assign r < c.maxNodes) ∧ (∀ i, (s.final i).isSome → i < c.maxNodes) ∧
      ∀ ids : List Nat, ids.Nodup → (∀ i, i ∈ ids ↔ (s.final i).isSome) →
        ∃ res, result c ids s = .ok res ∧ Conserved c.nrow res := by
  obtain ⟨dec', hd, hh⟩ := runD_sim (alg := .g) (c := c) (sched := sched)
    (dec := fun t s => adRejected phi strict c.nrow (cd t s) s) (fun t s rej h => adRejected_ok h) it fuel
  rcases hh with hh | ⟨t', s', e, hh1, hh2⟩
  · rw [hh]
    obtain ⟨h1, h2, h3⟩ := C73_gmeans_early_rounds_partial c hs hn hmin hmi hbig it hit sched hc dec' hd fuel hfu
    exact ⟨fun h => absurd h h1, h2, h3⟩
  · rw [hh2]
    refine ⟨fun h => ?_, ?_, nofun⟩
    · cases h; exact ⟨t', s', hh1⟩
    · intro h
      cases h
      -- the test throws nothing
      unfold adRejected at hh1
      split at hh1
      · rename_i e' he
        cases hh1
        exact adScores_no_throw _ _ _ _ _ he
      · split at hh1 <;> cases hh1

open Xmeans Hclust in
example (cd : Nat → St ℚ 1 → Nat → ℝ) : runD .g (demoTop [0, 1, 10, 11, 20, 21, 30, 31] 4 3 2) (.forgy 0 4)
    (fun t s => adRejected Phi 4 8 (cd t s) s) (fun _ _ => List.replicate 8 0) 6 ≠ .error .throws :=
  (C73_gmeans_ad_partial (demoTop [0, 1, 10, 11, 20, 21, 30, 31] 4 3 2)
    ⟨by decide, by decide, by decide, by decide, by decide⟩ (by decide) (by decide) (by decide)
    (fun r _ a i => WithTop.coe_lt_top _) (.forgy 0 4) ⟨by decide, by decide⟩ (fun _ _ => List.replicate 8 0)
    (fun _ _ => complete_demoTop [0, 1, 10, 11, 20, 21, 30, 31] (by decide) (by decide) 4 3 2)
    Phi 4 cd 6 (by decide)).2.1

open Xmeans Hclust in
/-- **C81** in runs: in the first round of every g-means run no split is taken back. -/
theorem C81_limit_first_round {R D : Type _} {n : Nat} [Field R] [LinearOrder R] [LinearOrder D] (c : Cfg R D n)
    (it : HInit R n) (hs : Sane c) (hn : 0 < n) (hmin : 2 ≤ c.minSize) (hmi : 1 ≤ c.maxIters)
    (hbig : Spec.MeansWithin c.nrow c.data c.dist c.big) (hit : Startable c it)
    (s s1 s2 : XSt R n) (e0 : start c it = .ok s) (e1 : meanPhase c s = .ok s1)
    (sched : Nat → List Nat) (hc : ∀ i, Par.Complete (Partition.effThreads c.reqThreads c.nrow)
      (Kmeans.threadRows c.nrow c.reqThreads) (sched i)) (e2 : iterate .g c sched s1 = .ok s2)
    (phi : ℝ → ℝ) (hphi : ∀ x, 0 < phi x ∧ phi x < 1) (strict : Nat) (cd : Nat → ℝ) (rej : List Nat)
    (h : adRejected phi strict c.nrow cd s2.h = .ok rej) : rej = [] := by
  obtain ⟨s', e0', hx, _⟩ := start_ok (c := c) hbig hs.two hs.kLt hs.rows .g hit
  rw [e0] at e0'; cases e0'
  have hf := fine_only (ks := []) (rej := []) hs hn hmin hmi hbig hc List.nodup_nil (by simp)
  obtain ⟨s1', e1', m1, k1, hh⟩ := round_ok hf hx
  rw [e1] at e1'; cases e1'
  rcases hh with ⟨_, e2'⟩ | ⟨h2, h3, d3, e2', hro, _⟩
  · rw [e2'] at e2; cases e2
  · rw [e2'] at e2; cases e2
    apply C81_limit_never_at_first phi hphi strict c.nrow hs.rows cd h2 _ rej h
    rw [hro.part]
    have hpart : s.h.part = fun _ => 0 := by
      obtain ⟨s0, m0, m1', a0, a1, _⟩ := init_ok (c := c) hs.two hs.kLt hbig hit
      unfold start at e0
      simp only [a0, a1] at e0
      cases e0
      rfl
    rw [hpart]
    have hsub : ((Finset.range c.nrow).image fun _ => 0) ⊆ ({0} : Finset Nat) := by
      intro x hx
      obtain ⟨_, _, rfl⟩ := Finset.mem_image.1 hx
      simp
    exact (Finset.card_le_card hsub).trans (by decide)

open Xmeans Hclust in
/-- The first round of a run on eight rows does reach its decision. -/
example : ∃ s s1 s2 : XSt ℚ 1, start (demoTop [0, 1, 10, 11, 20, 21, 30, 31] 4 3 2) (.forgy 0 4) = .ok s ∧
    meanPhase (demoTop [0, 1, 10, 11, 20, 21, 30, 31] 4 3 2) s = .ok s1 ∧
    iterate .g (demoTop [0, 1, 10, 11, 20, 21, 30, 31] 4 3 2) (fun _ => List.replicate 8 0) s1 = .ok s2 ∧
    ∀ (cd : Nat → ℝ) (rej : List Nat), adRejected Phi 4 8 cd s2.h = .ok rej → rej = [] := by
  have hd : (match start (demoTop [0, 1, 10, 11, 20, 21, 30, 31] 4 3 2) (.forgy 0 4) with
      | .ok s => match meanPhase (demoTop [0, 1, 10, 11, 20, 21, 30, 31] 4 3 2) s with
        | .ok s1 => match iterate .g (demoTop [0, 1, 10, 11, 20, 21, 30, 31] 4 3 2)
            (fun _ => List.replicate 8 0) s1 with
          | .ok _ => true
          | _ => false
        | _ => false
      | _ => false) = true := by decide +kernel
  split at hd
  · rename_i s e0
    split at hd
    · rename_i s1 e1
      split at hd
      · rename_i s2 e2
        exact ⟨s, s1, s2, e0, e1, e2, fun cd rej h => C81_limit_first_round
          (demoTop [0, 1, 10, 11, 20, 21, 30, 31] 4 3 2) (.forgy 0 4) ⟨by decide, by decide, by decide, by decide, by decide⟩ (by decide) (by decide) (by decide)
          (fun r _ a i => WithTop.coe_lt_top _) ⟨by decide, by decide⟩ s s1 s2 e0 e1 _
          (fun _ => complete_demoTop [0, 1, 10, 11, 20, 21, 30, 31] (by decide) (by decide) 4 3 2)
          e2 Phi normal_between 4 cd rej h⟩
      · cases hd
    · cases hd
  · cases hd

end Knor.Score
