import Mathlib.Algebra.Order.Field.Basic
import Mathlib.Algebra.Order.BigOperators.Ring.Finset
import Mathlib.Algebra.Order.BigOperators.Group.Finset
import Mathlib.Algebra.BigOperators.Field
import Mathlib.Tactic.Ring
import Mathlib.Tactic.FieldSimp
import Mathlib.Tactic.Positivity
import Mathlib.Tactic.Linarith
import Mathlib.Data.Fintype.Pigeonhole
import Mathlib.Data.Fintype.Pi
import Mathlib.Data.Fintype.BigOperators
import Mathlib.Data.Prod.Lex
import Verif.Spec.Lloyd
import Verif.Lemmas.Membership

/-! Mathematics of Lloyd's algorithm: monotonicity and termination. -/

namespace Knor.Spec

open Finset

variable {R D : Type _} {k n : Nat}

/-- Squared Euclidean distance. -/
def sqd [CommRing R] (x y : Fin n → R) : R := ∑ j, (x j - y j) ^ 2

theorem sqd_nonneg [Field R] [LinearOrder R] [IsStrictOrderedRing R] (x y : Fin n → R) :
    0 ≤ sqd x y := Finset.sum_nonneg fun _ _ => sq_nonneg _

/-- The mean minimises the sum of squared deviations. -/
theorem mean_minimises [Field R] [LinearOrder R] [IsStrictOrderedRing R] (S : Finset Nat)
    (x : Nat → R) (y : R) (hS : S.card ≠ 0) :
    ∑ r ∈ S, (x r - (∑ r ∈ S, x r) / (S.card : R)) ^ 2 ≤ ∑ r ∈ S, (x r - y) ^ 2 := by
  set m := (∑ r ∈ S, x r) / (S.card : R) with hm
  have hc : (S.card : R) ≠ 0 := by exact_mod_cast hS
  have hsum : ∑ r ∈ S, x r = S.card * m := by rw [hm]; field_simp
  have hz : ∑ r ∈ S, (x r - m) = 0 := by
    rw [Finset.sum_sub_distrib, hsum]; simp
  have key : ∑ r ∈ S, (x r - y) ^ 2 = ∑ r ∈ S, (x r - m) ^ 2 + S.card * (m - y) ^ 2 := by
    have : ∀ r ∈ S, (x r - y) ^ 2 = (x r - m) ^ 2 + (2 * (m - y)) * (x r - m) + (m - y) ^ 2 := by
      intro r _; ring
    rw [Finset.sum_congr rfl this, Finset.sum_add_distrib, Finset.sum_add_distrib,
      ← Finset.mul_sum, hz]
    simp
  rw [key]
  have : 0 ≤ (S.card : R) * (m - y) ^ 2 := mul_nonneg (Nat.cast_nonneg _) (sq_nonneg _)
  linarith

/-- Cost of an assignment against centroids. -/
def cost [CommRing R] (N : Nat) (data : Nat → Fin n → R) (cents : Fin k → Fin n → R)
    (a : Nat → Option (Fin k)) : R :=
  ∑ r ∈ range N, match a r with
    | some c => sqd (data r) (cents c)
    | none => 0

theorem wcss_eq_cost [CommRing R] (N : Nat) (data : Nat → Fin n → R) (s : Snap R k n) :
    wcss N data s = cost N data s.cents s.assign := rfl

theorem cost_by_cluster [CommRing R] (N : Nat) (data : Nat → Fin n → R)
    (cents : Fin k → Fin n → R) (a : Nat → Option (Fin k)) :
    cost N data cents a =
      ∑ c, ∑ j, ∑ r ∈ (range N).filter (fun r => a r = some c), (data r j - cents c j) ^ 2 := by
  have h : ∀ c, ∑ j, ∑ r ∈ (range N).filter (fun r => a r = some c), (data r j - cents c j) ^ 2
      = ∑ r ∈ range N, if a r = some c then sqd (data r) (cents c) else 0 := by
    intro c
    rw [Finset.sum_comm, Finset.sum_filter]
    rfl
  simp only [h]
  rw [Finset.sum_comm]
  unfold cost
  apply Finset.sum_congr rfl
  intro r _
  cases a r with
  | none => simp
  | some c => simp

theorem cost_mean_le [Field R] [LinearOrder R] [IsStrictOrderedRing R] (N : Nat)
    (data : Nat → Fin n → R) (a : Nat → Option (Fin k)) (cents : Fin k → Fin n → R) :
    cost N data (fun c j => memberMean N data a c j) a ≤ cost N data cents a := by
  rw [cost_by_cluster, cost_by_cluster]
  apply Finset.sum_le_sum
  intro c _
  apply Finset.sum_le_sum
  intro j _
  by_cases h : count N a c = 0
  · have : (range N).filter (fun r => a r = some c) = ∅ := by
      unfold count at h; rwa [Finset.card_eq_zero] at h
    simp [this]
  · have := mean_minimises ((range N).filter (fun r => a r = some c)) (fun r => data r j)
      (cents c j) h
    unfold memberMean
    rw [if_neg h]
    exact this

/-- Sum of cluster numbers, the tie-breaking part of the potential. -/
def idxSum (N : Nat) (a : Nat → Option (Fin k)) : Nat :=
  ∑ r ∈ range N, match a r with
    | some c => c.val
    | none => 0

theorem lloyd_pair [Field R] [LinearOrder R] [IsStrictOrderedRing R] [LinearOrder D]
    {dist : (Fin n → R) → (Fin n → R) → D} {N : Nat} {data : Nat → Fin n → R}
    {s0 s1 s2 : Snap R k n} (hd : LikeSq dist)
    (h1 : LloydStep dist N data s0 s1) (h2 : LloydStep dist N data s1 s2) :
    wcss N data s2 ≤ wcss N data s1 ∧
    (wcss N data s2 = wcss N data s1 → numChanged N s1.assign s2.assign ≠ 0 →
      idxSum N s2.assign < idxSum N s1.assign) := by
  have hrow : ∀ r, r < N → ∃ c1 c2, s1.assign r = some c1 ∧ s2.assign r = some c2 ∧
      sqd (data r) (s1.cents c2) ≤ sqd (data r) (s1.cents c1) ∧
      (sqd (data r) (s1.cents c2) = sqd (data r) (s1.cents c1) → c2 ≤ c1) := by
    intro r hr
    obtain ⟨c1, e1, _⟩ := h1.assigned r hr
    obtain ⟨c2, e2, hn, hfirst⟩ := h2.assigned r hr
    refine ⟨c1, c2, e1, e2, (hd _ _ _).1 (hn c1), ?_⟩
    intro heq
    apply hfirst
    intro c'
    have := hn c'
    refine le_trans ?_ this
    exact (hd _ _ _).2 heq.ge
  have hle : ∀ r ∈ range N, (match s2.assign r with
      | some c => sqd (data r) (s1.cents c) | none => 0) ≤
      (match s1.assign r with
      | some c => sqd (data r) (s1.cents c) | none => 0) := by
    intro r hr
    obtain ⟨c1, c2, e1, e2, h, _⟩ := hrow r (mem_range.1 hr)
    rw [e1, e2]; exact h
  have hA : cost N data s1.cents s2.assign ≤ cost N data s1.cents s1.assign :=
    Finset.sum_le_sum hle
  have hB : cost N data s2.cents s2.assign ≤ cost N data s1.cents s2.assign := by
    have e : s2.cents = fun c j => memberMean N data s2.assign c j := by
      funext c j; exact h2.means c j
    rw [e]; exact cost_mean_le N data s2.assign s1.cents
  rw [wcss_eq_cost, wcss_eq_cost]
  refine ⟨le_trans hB hA, ?_⟩
  intro heq hch
  have hAeq : cost N data s1.cents s2.assign = cost N data s1.cents s1.assign :=
    le_antisymm hA (heq ▸ hB)
  have hroweq := (Finset.sum_eq_sum_iff_of_le hle).1 hAeq
  unfold idxSum
  have hidx : ∀ r ∈ range N, (match s2.assign r with | some c => c.val | none => 0) ≤
      (match s1.assign r with | some c => c.val | none => 0) := by
    intro r hr
    obtain ⟨c1, c2, e1, e2, _, h⟩ := hrow r (mem_range.1 hr)
    have := hroweq r hr
    rw [e1, e2] at this ⊢
    exact h this
  unfold numChanged at hch
  obtain ⟨r, hr⟩ := Finset.card_ne_zero.1 hch
  rw [Finset.mem_filter] at hr
  apply Finset.sum_lt_sum hidx
  refine ⟨r, hr.1, ?_⟩
  have := hidx r hr.1
  obtain ⟨c1, c2, e1, e2, _, _⟩ := hrow r (mem_range.1 hr.1)
  rw [e1, e2] at this ⊢
  refine lt_of_le_of_ne this ?_
  intro h
  apply hr.2
  rw [e1, e2]
  congr 1
  exact (Fin.ext h).symm

theorem memberMean_congr [Field R] {N : Nat} {data : Nat → Fin n → R}
    {a b : Nat → Option (Fin k)} (h : ∀ r, r < N → a r = b r) (c : Fin k) (j : Fin n) :
    memberMean N data a c j = memberMean N data b c j := by
  have : (range N).filter (fun r => a r = some c) = (range N).filter (fun r => b r = some c) := by
    apply Finset.filter_congr
    intro r hr; rw [h r (mem_range.1 hr)]
  unfold memberMean count memberSum
  rw [this]

theorem cost_congr [CommRing R] {N : Nat} {data : Nat → Fin n → R} {cents : Fin k → Fin n → R}
    {a b : Nat → Option (Fin k)} (h : ∀ r, r < N → a r = b r) :
    cost N data cents a = cost N data cents b := by
  unfold cost
  apply Finset.sum_congr rfl
  intro r hr; rw [h r (mem_range.1 hr)]

theorem idxSum_congr {N : Nat} {a b : Nat → Option (Fin k)} (h : ∀ r, r < N → a r = b r) :
    idxSum N a = idxSum N b := by
  unfold idxSum
  apply Finset.sum_congr rfl
  intro r hr; rw [h r (mem_range.1 hr)]

/-- Lloyd's algorithm with lowest-index tie-breaking reaches a fixed point within `k^N + 1`
iterations. -/
theorem lloyd_terminates [Field R] [LinearOrder R] [IsStrictOrderedRing R] [LinearOrder D]
    {dist : (Fin n → R) → (Fin n → R) → D} {N : Nat} {data : Nat → Fin n → R}
    {tr : Nat → Snap R k n} (hd : LikeSq dist)
    (hstep : ∀ i, LloydStep dist N data (tr i) (tr (i + 1))) :
    ∃ i, 1 ≤ i ∧ i ≤ k ^ N + 1 ∧ numChanged N (tr (i - 1)).assign (tr i).assign = 0 := by
  by_contra hcon
  push Not at hcon
  -- potential of iteration `i + 1`
  let pot : Nat → Lex (R × Nat) := fun i =>
    toLex (wcss N data (tr (i + 1)), idxSum N (tr (i + 1)).assign)
  have hdec : ∀ i, i + 2 ≤ k ^ N + 1 → pot (i + 1) < pot i := by
    intro i hi
    obtain ⟨h1, h2⟩ := lloyd_pair hd (hstep i) (hstep (i + 1))
    have hch := hcon (i + 2) (by omega) hi
    rw [Prod.Lex.lt_iff]
    rcases lt_or_eq_of_le h1 with h | h
    · left; exact h
    · right; exact ⟨h, h2 h hch⟩
  have hmono : ∀ d i, i + (d + 1) + 1 ≤ k ^ N + 1 → pot (i + (d + 1)) < pot i := by
    intro d
    induction d with
    | zero => intro i hi; exact hdec i (by omega)
    | succ d ih =>
      intro i hi
      exact lt_trans (hdec (i + (d + 1)) (by omega)) (ih i (by omega))
  -- restriction of assignments to the rows
  have hsome : ∀ i r, r < N → ∃ c, (tr (i + 1)).assign r = some c := by
    intro i r hr
    obtain ⟨c, hc, _⟩ := (hstep i).assigned r hr
    exact ⟨c, hc⟩
  choose f hf using hsome
  let g : Fin (k ^ N + 1) → (Fin N → Fin k) := fun i r => f i.val r.val r.isLt
  have hcard : Fintype.card (Fin N → Fin k) < Fintype.card (Fin (k ^ N + 1)) := by
    simp
  obtain ⟨x, y, hxy, hg⟩ := Fintype.exists_ne_map_eq_of_card_lt g hcard
  have hsame : ∀ r, r < N → (tr (x.val + 1)).assign r = (tr (y.val + 1)).assign r := by
    intro r hr
    rw [hf _ r hr, hf _ r hr]
    have := congrFun hg ⟨r, hr⟩
    simp only [g] at this
    rw [this]
  have hpot : pot x.val = pot y.val := by
    have hc : (tr (x.val + 1)).cents = (tr (y.val + 1)).cents := by
      funext c j
      rw [(hstep _).means, (hstep _).means, memberMean_congr hsame]
    simp only [pot, wcss_eq_cost, hc, cost_congr hsame, idxSum_congr hsame]
  rcases lt_or_gt_of_ne (Fin.val_ne_of_ne hxy) with h | h
  · have := hmono (y.val - x.val - 1) x.val (by omega)
    rw [show x.val + (y.val - x.val - 1 + 1) = y.val by omega, hpot] at this
    exact lt_irrefl _ this
  · have := hmono (x.val - y.val - 1) y.val (by omega)
    rw [show y.val + (x.val - y.val - 1 + 1) = x.val by omega, hpot] at this
    exact lt_irrefl _ this

end Knor.Spec
