import Verif.Lemmas.Separated
import Verif.Props.NearLloyd

/-!
# Property C98: on separated data rounding does not change the clustering

C97 allows rows to go to a centroid that is only nearly the nearest.  If in every iteration of Lloyd's algorithm
in exact arithmetic the nearest centroid of every row wins by more than the error of the distances, then the run on
doubles makes exactly the same assignments in every iteration, hence returns the same clusters after the same
number of iterations.  Errors do not build up over the iterations, because the centroids are recomputed from the
rows every time: they are always one rounding of the mean away from the exact ones.
-/

namespace Knor.Spec

variable {R F : Type _} {k n : Nat}

/-- The run returned the clusters of the exact Lloyd iterations `tr`: it made as many iterations as the stopping
rule asks for (the fraction of changed rows is computed in the arithmetic of `R`), its assignment and sizes are
those of `tr`, and its centroids differ from those of `tr` by at most `δ`. -/
def SameClusters [Field F] [LinearOrder F] [Div R] [NatCast R] [LE R] (val : R → F) (δ : F) (N : Nat) (tol : R)
    (maxIters : Nat) (tr : Nat → Snap F k n) (iters : Nat) (assign : Nat → Option (Fin k)) (counts : Fin k → Int)
    (cents : Fin k → Fin n → R) : Prop :=
  let changed := fun i => numChanged N (tr (i - 1)).assign (tr i).assign
  let stops := fun i => changed i = 0 ∨ (changed i : R) / (N : R) ≤ tol
  ∃ m, 1 ≤ m ∧ m ≤ maxIters ∧ (∀ i, 1 ≤ i → i < m → ¬ stops i) ∧
    (stops m ∧ iters = m ∨ ¬ stops m ∧ m = maxIters ∧ iters = maxIters + 1) ∧
    (∀ r, r < N → assign r = (tr m).assign r) ∧
    (∀ c, counts c = (count N (tr m).assign c : Int)) ∧
    ∀ c j, |val (cents c j) - (tr m).cents c j| ≤ δ

end Knor.Spec

namespace Knor.NearLloyd

open Knor Knor.Par Knor.Partition Knor.Spec Knor.Kmeans

variable {R F : Type _} {k n : Nat}

theorem numChanged_congr {N : Nat} {a a' b b' : Nat → Option (Fin k)} (ha : ∀ r, r < N → a r = a' r)
    (hb : ∀ r, r < N → b r = b' r) : numChanged N a b = numChanged N a' b' := by
  unfold numChanged
  congr 1
  apply Finset.filter_congr
  intro r hr
  rw [ha r (Finset.mem_range.1 hr), hb r (Finset.mem_range.1 hr)]

/-- **C98 (in general).** Whatever is Lloyd's algorithm up to rounding returns the clusters of the exact
algorithm if the exact iterations are separated. -/
theorem C98_near_lloyd_is_lloyd [Field F] [LinearOrder F] [IsStrictOrderedRing F] [Div R] [NatCast R] [LE R]
    {fin : R → Prop} {val : R → F} {dist : (Fin n → F) → (Fin n → F) → F} {γ ζ e η Λ X : F} {N : Nat}
    {data : Nat → Fin n → R} {cents0 : Fin k → Fin n → R} {tol : R} {maxIters iters : Nat}
    {assign : Nat → Option (Fin k)} {counts : Fin k → Int} {cents : Fin k → Fin n → R}
    (hγ : γ ≤ 1) (hγ0 : 0 ≤ γ) (he : 0 ≤ e) (hη : 0 ≤ η) (hX0 : 0 ≤ X)
    (hX : ∀ r, r < N → ∀ j, |val (data r j)| ≤ X)
    (hΛ : ∀ x y y' : Fin n → F, (∀ j, |y' j - y j| ≤ e * X + η) → |dist x y' - dist x y| ≤ Λ)
    (h : NearLloydResult fin val dist γ ζ e η N data cents0 tol maxIters iters assign counts cents)
    (tr : Nat → Snap F k n)
    (hl : LloydTrace dist N (fun r j => val (data r j)) (fun c j => val (cents0 c j)) tr)
    (hs : ∀ i, i < maxIters → Separated dist γ ζ Λ N (fun r j => val (data r j)) (tr i) (tr (i + 1))) :
    SameClusters val (e * X + η) N tol maxIters tr iters assign counts cents := by
  obtain ⟨m, tr', h1, h2, h3, h4, h5, h6, h7, h8, _⟩ := h
  have hf := near_follows hγ hγ0 he hη hX0 hX (fun i _ r _ c h => hΛ _ _ _ h) h3 hl fun i hi => hs i (by omega)
  have hch : ∀ i, i ≤ m → numChanged N (tr' (i - 1)).assign (tr' i).assign =
      numChanged N (tr (i - 1)).assign (tr i).assign := fun i hi =>
    numChanged_congr (hf (i - 1) (by omega)).1 (hf i hi).1
  refine ⟨m, h1, h2, ?_, ?_, ?_, ?_, ?_⟩
  · intro i hi hi'
    have := h4 i hi hi'
    dsimp only at this ⊢
    rw [hch i (by omega)] at this
    exact this
  · dsimp only at h5 ⊢
    rw [hch m le_rfl] at h5
    exact h5
  · intro r hr
    rw [h6 r hr, (hf m le_rfl).1 r hr]
  · intro c
    rw [h7 c]
    unfold Spec.count
    congr 2
    apply Finset.filter_congr
    intro r hr
    rw [h6 r (Finset.mem_range.1 hr), (hf m le_rfl).1 r (Finset.mem_range.1 hr)]
  · intro c j
    rw [(h8 c j).2]
    exact (hf m le_rfl).2 c j

section Double

variable [Zero R] [Add R] [Sub R] [Mul R] [Div R] [IntCast R] [LT R] [DecidableLT R]
  [NatCast R] [LE R] [DecidableLE R] {fin : R → Prop} {val : R → ℝ} {sqrt abs' : R → R} {big : R}
  {data : Nat → Row R n} {N nt : Nat} {s0 : KState R k n}

omit [Zero R] [Add R] [Sub R] [Mul R] [Div R] [IntCast R] [LT R] [DecidableLT R] [NatCast R] [LE R] [DecidableLE R] in
theorem gamma_le {m : Nat} (hm : m ≤ 2 ^ 52) : (m : ℝ) * 2 ^ (-52 : Int) ≤ 1 ∧ 0 ≤ (m : ℝ) * 2 ^ (-52 : Int) := by
  refine ⟨?_, by positivity⟩
  have h1 : (m : ℝ) ≤ (2 : ℝ) ^ (52 : Int) := by
    have : (m : ℝ) ≤ ((2 ^ 52 : Nat) : ℝ) := by exact_mod_cast hm
    refine this.trans (le_of_eq ?_)
    norm_num
  calc (m : ℝ) * 2 ^ (-52 : Int) ≤ (2 : ℝ) ^ (52 : Int) * 2 ^ (-52 : Int) :=
        mul_le_mul_of_nonneg_right h1 (p_pos _).le
    _ = 1 := by rw [p_mul]; norm_num

omit [DecidableLT R] [DecidableLE R] in
/-- **C98 (doubles, Euclidean distance).** `X` bounds the rows; `δ = (L+T+1) 2^-52 X + 2^-1075` is the error of
a centroid, and distances move by at most `√n δ`. -/
theorem C98_double_eucl [DecidableLT R] [DecidableLE R] (hI : IeeeDouble fin val sqrt abs') (tol : R) (maxIters : Nat)
    (sched : Nat → List Nat) (hin : DoubleInput fin val big data N nt s0.cltrs.means) (hm : 0 < maxIters)
    (hc : ∀ i, Complete (effThreads nt N) (threadRows N nt) (sched i))
    (T L : Nat) (hT : T = effThreads nt N) (hL : L = N / T + N % T)
    (X : ℝ) (hX0 : 0 ≤ X) (hX : ∀ r, r < N → ∀ j, |val (data r j)| ≤ X)
    (δ : ℝ) (hδ : δ = (L + T + 1 : Nat) * 2 ^ (-52 : Int) * X + 2 ^ (-1075 : Int))
    (tr : Nat → Snap ℝ k n)
    (hl : LloydTrace (fun x y => √(sqDistance x y)) N (fun r j => val (data r j))
      (fun c j => val (s0.cltrs.means c j)) tr)
    (hs : ∀ i, i < maxIters → Separated (fun x y => √(sqDistance x y)) ((n + 4 : Nat) * 2 ^ (-52 : Int))
      (2 ^ (-520 : Int)) (√n * δ) N (fun r j => val (data r j)) (tr i) (tr (i + 1))) :
    ∃ res, Kmeans.run (Dist.euclAny sqrt) big data N nt tol maxIters sched s0 = .ok res ∧
      SameClusters val δ N tol maxIters tr res.iters res.state.assign res.state.counts res.state.cltrs.means := by
  obtain ⟨res, h1, h2⟩ := C97_double_eucl hI tol maxIters sched hin hm hc T L hT hL
  have hcol := hin.col_le
  have hlen := len_le hin.n_pos hin.nt_pos hin.n_lt
  rw [← hT, ← hL] at hlen
  refine ⟨res, h1, ?_⟩
  rw [hδ]
  refine C98_near_lloyd_is_lloyd (gamma_le (by omega)).1 (gamma_le (by omega)).2 (gamma_le (by omega)).2 (p_pos _).le
    hX0 hX ?_ h2 tr hl hs
  intro x y y' h
  rw [hδ]
  exact eucl_lip h

omit [DecidableLT R] [DecidableLE R] in
/-- **C98 (doubles, taxicab distance).** -/
theorem C98_double_taxi [DecidableLT R] [DecidableLE R] (hI : IeeeDouble fin val sqrt abs') (tol : R) (maxIters : Nat)
    (sched : Nat → List Nat) (hin : DoubleInput fin val big data N nt s0.cltrs.means) (hm : 0 < maxIters)
    (hc : ∀ i, Complete (effThreads nt N) (threadRows N nt) (sched i))
    (T L : Nat) (hT : T = effThreads nt N) (hL : L = N / T + N % T)
    (X : ℝ) (hX0 : 0 ≤ X) (hX : ∀ r, r < N → ∀ j, |val (data r j)| ≤ X)
    (δ : ℝ) (hδ : δ = (L + T + 1 : Nat) * 2 ^ (-52 : Int) * X + 2 ^ (-1075 : Int))
    (tr : Nat → Snap ℝ k n)
    (hl : LloydTrace taxiDistance N (fun r j => val (data r j)) (fun c j => val (s0.cltrs.means c j)) tr)
    (hs : ∀ i, i < maxIters → Separated taxiDistance (((n + 1 : Nat) : ℝ) * 2 ^ (-52 : Int))
      (0 : ℝ) ((n : ℝ) * δ) N (fun r j => val (data r j)) (tr i) (tr (i + 1))) :
    ∃ res, Kmeans.run (Dist.taxiAny abs') big data N nt tol maxIters sched s0 = .ok res ∧
      SameClusters val δ N tol maxIters tr res.iters res.state.assign res.state.counts res.state.cltrs.means := by
  obtain ⟨res, h1, h2⟩ := C97_double_taxi hI tol maxIters sched hin hm hc T L hT hL
  have hcol := hin.col_le
  have hlen := len_le hin.n_pos hin.nt_pos hin.n_lt
  rw [← hT, ← hL] at hlen
  refine ⟨res, h1, ?_⟩
  rw [hδ]
  refine C98_near_lloyd_is_lloyd (gamma_le (by omega)).1 (gamma_le (by omega)).2 (gamma_le (by omega)).2 (p_pos _).le
    hX0 hX ?_ h2 tr hl hs
  intro x y y' h
  rw [hδ]
  exact taxi_lip h

end Double

/-! ### An example: rows 0, 1, 10, 11 as doubles, start at 0 and 10 -/

/-- Rows of the example. -/
def sepRow (r : Nat) : Nat := [0, 1, 10, 11].getD r 0
/-- Rows of the example. -/
def sepData (r : Nat) : Row Dbl 1 := fun _ => ⟨(sepRow r : ℝ)⟩
/-- Start of the example. -/
def sepInit : KState Dbl 2 1 :=
  { cltrs := { means := fun c _ => ⟨((if c = 0 then 0 else 10 : Nat) : ℝ)⟩, num := fun _ => 0, complete := fun _ => false }
    assign := fun _ => none, counts := fun _ => 0, changed := 0 }

/-- The exact iterations: after the first one the centroids are 1/2 and 21/2. -/
noncomputable def sepTrace (i : Nat) : Snap ℝ 2 1 :=
  if i = 0 then ⟨fun c _ => ((if c = 0 then 0 else 10 : Nat) : ℝ), fun _ => none⟩
  else ⟨fun c _ => if c = 0 then 1/2 else 21/2, fun r => if r < 2 then some 0 else some 1⟩

theorem sep_input : DoubleInput Dbl.Fin' Dbl.v ⟨maxDouble⟩ sepData 4 2 sepInit.cltrs.means := by
  have hsmall : ∀ r : Nat, r ≤ 16 → IsDouble (r : ℝ) ∧ |(r : ℝ)| ≤ 2 ^ (400 : Int) := by
    intro r hr
    refine ⟨nat_isDouble (hr.trans (by norm_num)), ?_⟩
    rw [abs_of_nonneg (Nat.cast_nonneg r)]
    have h1 : (r : ℝ) ≤ ((16 : Nat) : ℝ) := by exact_mod_cast hr
    have h2 : ((16 : Nat) : ℝ) = 2 ^ (4 : Int) := by norm_num
    rw [h2] at h1
    exact h1.trans (p_le (by norm_num))
  refine ⟨by norm_num, by norm_num, by norm_num, by norm_num, by norm_num, dbl_input.big, ?_, ?_⟩
  · intro r hr j
    refine hsmall (sepRow r) ?_
    have : r = 0 ∨ r = 1 ∨ r = 2 ∨ r = 3 := by omega
    rcases this with rfl | rfl | rfl | rfl <;> decide
  · intro c j
    refine hsmall _ ?_
    split <;> decide

/-- Distance between numbers. -/
theorem sqrt_one (a b : ℝ) : √(sqDistance (fun _ : Fin 1 => a) fun _ => b) = |a - b| := by
  unfold sqDistance
  rw [Fin.sum_univ_one, Real.sqrt_sq_eq_abs]

/-- In all iterations, rows 0 and 1 are within 1 of centroid 0 and at least 9 away from centroid 1, and vice
versa. -/
theorem sep_dist (i r : Nat) (hr : r < 4) :
    let d := fun c => √(sqDistance (fun j => (sepData r j).v) ((sepTrace i).cents c))
    (r < 2 → d 0 ≤ 1 ∧ 9 ≤ d 1) ∧ (¬ r < 2 → d 1 ≤ 1 ∧ 9 ≤ d 0) := by
  intro d
  have hd : ∀ c, d c = |(sepRow r : ℝ) - (sepTrace i).cents c 0| := by
    intro c
    have e : (sepTrace i).cents c = fun _ => (sepTrace i).cents c 0 := by
      funext j; rw [Subsingleton.elim j 0]
    change √(sqDistance (fun _ => (sepRow r : ℝ)) ((sepTrace i).cents c)) = _
    rw [e, sqrt_one]
  rw [hd, hd]
  unfold sepTrace
  have : r = 0 ∨ r = 1 ∨ r = 2 ∨ r = 3 := by omega
  by_cases hi : i = 0
  · rcases this with rfl | rfl | rfl | rfl <;> simp only [hi, sepRow] <;> norm_num [abs_le, le_abs]
  · rcases this with rfl | rfl | rfl | rfl <;> simp only [if_neg hi, sepRow] <;> norm_num [abs_le, le_abs]

theorem sep_lloyd : LloydTrace (fun x y => √(sqDistance x y)) 4 (fun r j => (sepData r j).v)
    (fun c j => (sepInit.cltrs.means c j).v) sepTrace where
  cents := rfl
  unassigned := fun _ => rfl
  step := by
    intro i
    constructor
    · intro r hr
      obtain ⟨h1, h2⟩ := sep_dist i r hr
      have ha : (sepTrace (i + 1)).assign r = if r < 2 then some 0 else some 1 := rfl
      rw [ha]
      by_cases h : r < 2
      · obtain ⟨h3, h4⟩ := h1 h
        refine ⟨0, by rw [if_pos h], fun c' => ?_, fun c' _ => Fin.zero_le _⟩
        match c' with
        | 0 => exact le_rfl
        | 1 => dsimp only; linarith
      · obtain ⟨h3, h4⟩ := h2 h
        refine ⟨1, by rw [if_neg h], fun c' => ?_, fun c' hc' => ?_⟩
        · match c' with
          | 0 => dsimp only; linarith
          | 1 => exact le_rfl
        · match c' with
          | 0 =>
            have := hc' 1
            dsimp only at this
            exfalso
            linarith
          | 1 => exact le_rfl
    · intro c j
      have ha : (sepTrace (i + 1)).assign = fun r => if r < 2 then some 0 else some 1 := rfl
      rw [ha]
      have f0 : (Finset.range 4).filter (fun r => (if r < 2 then some (0 : Fin 2) else some 1) = some 0) = {0, 1} := by
        decide
      have f1 : (Finset.range 4).filter (fun r => (if r < 2 then some (0 : Fin 2) else some 1) = some 1) = {2, 3} := by
        decide
      unfold memberMean memberSum Spec.count
      match c with
      | 0 =>
        rw [f0]
        change (1 / 2 : ℝ) = _
        norm_num [sepData, sepRow]
      | 1 =>
        rw [f1]
        change (21 / 2 : ℝ) = _
        norm_num [sepData, sepRow]

theorem sep_separated_of (m : Nat) (hm : m ≤ 10) (i : Nat) : Separated (fun x y => √(sqDistance x y)) ((1 + 4 : Nat) * 2 ^ (-52 : Int))
    (2 ^ (-520 : Int)) (√(1 : Nat) * ((m : Nat) * 2 ^ (-52 : Int) * 11 + 2 ^ (-1075 : Int))) 4
    (fun r j => (sepData r j).v) (sepTrace i) (sepTrace (i + 1)) := by
  intro r hr c c' hc hne
  obtain ⟨h1, h2⟩ := sep_dist i r hr
  have ha : (sepTrace (i + 1)).assign r = if r < 2 then some 0 else some 1 := rfl
  rw [ha] at hc
  have hd : √(sqDistance (fun j => (sepData r j).v) ((sepTrace i).cents c)) ≤ 1 ∧
      9 ≤ √(sqDistance (fun j => (sepData r j).v) ((sepTrace i).cents c')) := by
    by_cases h : r < 2
    · rw [if_pos h] at hc
      cases hc
      match c' with
      | 0 => exact absurd rfl hne
      | 1 => exact h1 h
    · rw [if_neg h] at hc
      cases hc
      match c' with
      | 0 => exact h2 h
      | 1 => exact absurd rfl hne
  have hd0 := Real.sqrt_nonneg (sqDistance (fun j => (sepData r j).v) ((sepTrace i).cents c))
  have b1 : (2 : ℝ) ^ (-52 : Int) ≤ 1 / 1000 := by norm_num
  have b2 : (2 : ℝ) ^ (-1075 : Int) ≤ 1 / 1000 := by
    refine (p_le (show (-1075 : Int) ≤ -52 by norm_num)).trans b1
  have b3 : (2 : ℝ) ^ (-520 : Int) ≤ 1 / 1000 := by
    refine (p_le (show (-520 : Int) ≤ -52 by norm_num)).trans b1
  have c1 := p_pos (-52)
  have c2 := p_pos (-1075)
  have c3 := p_pos (-520)
  generalize (2 : ℝ) ^ (-52 : Int) = u at *
  generalize (2 : ℝ) ^ (-1075 : Int) = η at *
  generalize (2 : ℝ) ^ (-520 : Int) = ζ at *
  dsimp only
  generalize √(sqDistance (fun j => (sepData r j).v) ((sepTrace i).cents c)) = d at *
  generalize √(sqDistance (fun j => (sepData r j).v) ((sepTrace i).cents c')) = d' at *
  obtain ⟨hd1, hd2⟩ := hd
  simp only [Nat.cast_one, Real.sqrt_one, one_mul]
  push_cast
  have hm' : (m : ℝ) ≤ 10 := by exact_mod_cast hm
  have hm0 : (0 : ℝ) ≤ m := Nat.cast_nonneg m
  have hmu : (m : ℝ) * u ≤ 10 / 1000 := (mul_le_mul hm' b1 c1.le (by norm_num)).trans (by norm_num)
  have hmu0 : 0 ≤ (m : ℝ) * u := mul_nonneg hm0 c1.le
  generalize (m : ℝ) * u = w at *
  have g1 : (1 + (1 + 4) * u) * (d + (w * 11 + η)) ≤ (1 + 5 / 1000) * (1 + (10 / 1000 * 11 + 1 / 1000)) := by
    apply mul_le_mul
    · linarith
    · linarith
    · linarith
    · norm_num
  have g2 : (1 - 5 / 1000) * (9 - (10 / 1000 * 11 + 1 / 1000)) ≤ (1 - (1 + 4) * u) * (d' - (w * 11 + η)) := by
    apply mul_le_mul
    · linarith
    · linarith
    · norm_num
    · linarith
  linarith

theorem sep_separated (i : Nat) : Separated (fun x y => √(sqDistance x y)) ((1 + 4 : Nat) * 2 ^ (-52 : Int))
    (2 ^ (-520 : Int)) (√(1 : Nat) * ((5 : Nat) * 2 ^ (-52 : Int) * 11 + 2 ^ (-1075 : Int))) 4
    (fun r j => (sepData r j).v) (sepTrace i) (sepTrace (i + 1)) := sep_separated_of 5 (by decide) i

/-- The run on doubles makes the exact assignments and returns centroids within `6·10^-14` (and
`2^-1075`) of 1/2 and 21/2. -/
example (tol : Dbl) : ∃ res,
    Kmeans.run (Dist.euclAny fun x => Dbl.rnd (√x.v)) ⟨maxDouble⟩ sepData 4 2 tol 5 Kmeans.demoSched sepInit = .ok res ∧
      SameClusters Dbl.v ((5 : Nat) * 2 ^ (-52 : Int) * 11 + 2 ^ (-1075 : Int)) 4 tol 5 sepTrace res.iters
        res.state.assign res.state.counts res.state.cltrs.means := by
  refine C98_double_eucl Dbl.ieee tol 5 Kmeans.demoSched sep_input (by norm_num) demo_complete 2 2 (by decide)
    (by decide) 11 (by norm_num) ?_ _ rfl sepTrace sep_lloyd
    fun i _ => sep_separated i
  intro r hr j
  have : r = 0 ∨ r = 1 ∨ r = 2 ∨ r = 3 := by omega
  rcases this with rfl | rfl | rfl | rfl <;> norm_num [sepData, sepRow, abs_le]

end Knor.NearLloyd
