import Mathlib.LinearAlgebra.Matrix.Determinant.Basic
import Mathlib.LinearAlgebra.Matrix.Adjugate
import Verif.Model.Linalg

/-!
# Lemmas about cofactors and determinants
-/

namespace Knor.Linalg

open Knor

variable {R : Type _}

/-- Position of column `c` after removing column `q`. -/
def skipIdx (q c : Nat) : Nat := if c ≤ q then c else c - 1

/-- State of the inner loop after the first `c` columns of a kept row. -/
theorem cof_inner (A : Nat → R) {p q n N row : Nat} (hrow : row ≠ p) (hq : q < n) (hn : 2 ≤ n)
    (hN : n ≤ N) (s : Cof R) (hj : s.j = 0) : ∀ c, c ≤ n →
    ∃ s', (List.range c).foldl (cofCell A p q n N row) s = s' ∧
      (if skipIdx q c = n - 1 then s'.i = s.i + 1 ∧ s'.j = 0 else s'.i = s.i ∧ s'.j = skipIdx q c) ∧
      (∀ col, col < c → col ≠ q → s'.temp (s.i * N + skipIdx q col) = A (row * N + col)) ∧
      ∀ x, (∀ t, t < n - 1 → x ≠ s.i * N + t) → s'.temp x = s.temp x := by
  intro c
  induction c with
  | zero =>
    intro _
    refine ⟨s, rfl, ?_, by intro col h; omega, fun _ _ => rfl⟩
    have : skipIdx q 0 = 0 := by simp [skipIdx]
    rw [this, if_neg (by omega)]
    exact ⟨rfl, hj⟩
  | succ c ih =>
    intro hc
    obtain ⟨s', e, h1, h2, h3⟩ := ih (by omega)
    rw [List.range_succ, List.foldl_append, e]
    simp only [List.foldl_cons, List.foldl_nil]
    by_cases hcq : c = q
    · refine ⟨s', ?_, ?_, ?_, h3⟩
      · unfold cofCell
        rw [if_neg (by tauto)]
      · have : skipIdx q (c + 1) = skipIdx q c := by unfold skipIdx; split <;> split <;> omega
        rw [this]
        exact h1
      · intro col hcol hne
        exact h2 col (by omega) hne
    · have hne : skipIdx q c ≠ n - 1 := by unfold skipIdx; split <;> omega
      rw [if_neg hne] at h1
      obtain ⟨hi, hj'⟩ := h1
      have hlt : skipIdx q c < n - 1 := by
        have : skipIdx q c ≤ n - 1 := by unfold skipIdx; split <;> omega
        omega
      have hstep : skipIdx q (c + 1) = skipIdx q c + 1 := by
        unfold skipIdx; split <;> split <;> omega
      have htemp : ∀ s'' : Cof R, s''.temp = Function.update s'.temp (s'.i * N + s'.j)
            (A (row * N + c)) →
          (∀ col, col < c + 1 → col ≠ q → s''.temp (s.i * N + skipIdx q col) = A (row * N + col)) ∧
          ∀ x, (∀ t, t < n - 1 → x ≠ s.i * N + t) → s''.temp x = s.temp x := by
        intro s'' ht
        rw [ht, hi, hj']
        constructor
        · intro col hcol hcq'
          by_cases hcc : col = c
          · subst hcc
            rw [Function.update_self]
          · rw [Function.update_of_ne, h2 col (by omega) hcq']
            intro hx
            have hx' : skipIdx q col = skipIdx q c := by omega
            revert hx'
            unfold skipIdx
            split <;> split <;> omega
        · intro x hx
          rw [Function.update_of_ne (hx _ hlt)]
          exact h3 x hx
      unfold cofCell
      rw [if_pos ⟨hrow, hcq⟩]
      simp only
      by_cases hend : s'.j + 1 = n - 1
      · rw [if_pos hend]
        refine ⟨_, rfl, ?_, htemp _ rfl⟩
        rw [hstep, ← hj', if_pos hend]
        exact ⟨by rw [hi], rfl⟩
      · rw [if_neg hend]
        refine ⟨_, rfl, ?_, htemp _ rfl⟩
        rw [hstep, ← hj', if_neg hend]
        exact ⟨hi, rfl⟩

theorem cof_outer (A : Nat → R) {p q n N : Nat} (hp : p < n) (hq : q < n) (hn : 2 ≤ n) (hN : n ≤ N)
    (temp : Nat → R) : ∀ r, r ≤ n →
    ∃ s', (List.range r).foldl (fun s row => (List.range n).foldl (cofCell A p q n N row) s)
        ⟨0, 0, temp⟩ = s' ∧ s'.i = skipIdx p r ∧ s'.j = 0 ∧
      ∀ row, row < r → row ≠ p → ∀ col, col < n → col ≠ q →
        s'.temp (skipIdx p row * N + skipIdx q col) = A (row * N + col) := by
  intro r
  induction r with
  | zero =>
    intro _
    exact ⟨_, rfl, by simp [skipIdx], rfl, by intro row h; omega⟩
  | succ r ih =>
    intro hr
    obtain ⟨s', e, hi, hj, ht⟩ := ih (by omega)
    rw [List.range_succ, List.foldl_append, e]
    simp only [List.foldl_cons, List.foldl_nil]
    by_cases hrp : r = p
    · have hid : ∀ (l : List Nat) (s : Cof R), l.foldl (cofCell A p q n N r) s = s := by
        intro l
        induction l with
        | nil => intro s; rfl
        | cons c l ih =>
          intro s
          rw [List.foldl_cons, ih]
          unfold cofCell
          rw [if_neg (by tauto)]
      rw [hid]
      refine ⟨s', rfl, ?_, hj, ?_⟩
      · rw [hi]; unfold skipIdx; split <;> split <;> omega
      · intro row hrow hne
        exact ht row (by omega) hne
    · obtain ⟨s'', e', h1, h2, h3⟩ := cof_inner A (row := r) hrp hq hn hN s' hj n (le_refl _)
      rw [e']
      have hfull : skipIdx q n = n - 1 := by unfold skipIdx; rw [if_neg (by omega)]
      rw [if_pos hfull] at h1
      refine ⟨s'', rfl, ?_, h1.2, ?_⟩
      · rw [h1.1, hi]; unfold skipIdx; split <;> split <;> omega
      · intro row hrow hne col hcol hcq
        by_cases hrr : row = r
        · subst hrr
          rw [← hi]
          exact h2 col hcol hcq
        · rw [h3, ht row (by omega) hne col hcol hcq]
          intro t ht' heq
          have hlt : skipIdx q col < n - 1 := by unfold skipIdx; split <;> omega
          have hrlt : skipIdx p row < skipIdx p r := by unfold skipIdx; split <;> split <;> omega
          rw [hi] at heq
          have h5 : (skipIdx p row + 1) * N ≤ skipIdx p r * N := Nat.mul_le_mul_right N hrlt
          rw [Nat.add_mul] at h5
          omega

theorem skipIdx_succAbove {n : Nat} (q : Fin (n + 1)) (j : Fin n) :
    skipIdx q (q.succAbove j) = j ∧ ((q.succAbove j : Fin (n + 1)) : Nat) ≠ q := by
  refine ⟨?_, fun h => Fin.succAbove_ne q j (Fin.ext h)⟩
  unfold skipIdx
  rcases lt_or_ge j.castSucc q with h | h
  · rw [Fin.succAbove_of_castSucc_lt _ _ h]
    have h' : (j : Nat) < q := h
    rw [if_pos (by simp; omega)]
    simp
  · rw [Fin.succAbove_of_le_castSucc _ _ h]
    have h' : (q : Nat) ≤ j := h
    rw [if_neg (by simp; omega)]
    simp

/-- The matrix in the leading `n × n` block of a buffer with row length `N`. -/
def toMatrix (N n : Nat) (A : Nat → R) : Matrix (Fin n) (Fin n) R :=
  Matrix.of fun i j => A (i * N + j)

theorem getCofactor_eq (A temp : Nat → R) {n N : Nat} (hn : 1 ≤ n) (hN : n + 1 ≤ N)
    (p q : Fin (n + 1)) :
    toMatrix N n (getCofactor A temp p q (n + 1) N)
      = (toMatrix N (n + 1) A).submatrix p.succAbove q.succAbove := by
  obtain ⟨s', e, _, _, ht⟩ := cof_outer A p.2 q.2 (by omega) hN temp (n + 1) (le_refl _)
  ext i j
  unfold getCofactor toMatrix
  rw [e, Matrix.submatrix_apply, Matrix.of_apply, Matrix.of_apply]
  have h := ht (p.succAbove i) (p.succAbove i).2 (skipIdx_succAbove p i).2 (q.succAbove j)
    (q.succAbove j).2 (skipIdx_succAbove q j).2
  rw [(skipIdx_succAbove p i).1, (skipIdx_succAbove q j).1] at h
  exact h

theorem det_loop [CommRing R] {N n : Nat} (hN : n + 2 ≤ N) (A : Nat → R)
    (hdet : ∀ B : Nat → R, determinant N (n + 1) B = (toMatrix N (n + 1) B).det) :
    ∀ m, m ≤ n + 2 → ∃ s, (List.range m).foldl (fun (s : DetSt R) f =>
        let temp := getCofactor A s.temp 0 f (n + 2) N
        (⟨s.D + s.sign * A f * determinant N (n + 1) temp, -s.sign, temp⟩ : DetSt R))
        ⟨0, 1, fun _ => 0⟩ = s ∧ s.sign = (-1) ^ m ∧
      s.D = ∑ f ∈ Finset.univ.filter (fun f : Fin (n + 2) => (f : Nat) < m),
        (-1) ^ (f : Nat) * A f * ((toMatrix N (n + 2) A).submatrix (Fin.succAbove 0)
          f.succAbove).det := by
  intro m
  induction m with
  | zero => intro _; exact ⟨_, rfl, by simp, by simp⟩
  | succ m ih =>
    intro hm
    obtain ⟨s, e, h1, h2⟩ := ih (by omega)
    rw [List.range_succ, List.foldl_append, e]
    refine ⟨_, rfl, ?_, ?_⟩
    · simp only [List.foldl_cons, List.foldl_nil]
      rw [h1, pow_succ]; ring
    · simp only [List.foldl_cons, List.foldl_nil]
      rw [h1, h2, hdet]
      have hc := getCofactor_eq A s.temp (by omega) hN (0 : Fin (n + 2)) ⟨m, by omega⟩
      simp only [Fin.val_zero] at hc
      rw [hc]
      have hf : Finset.univ.filter (fun f : Fin (n + 2) => (f : Nat) < m + 1)
          = insert ⟨m, by omega⟩ (Finset.univ.filter fun f : Fin (n + 2) => (f : Nat) < m) := by
        ext f
        simp only [Finset.mem_filter, Finset.mem_univ, true_and, Finset.mem_insert, Fin.ext_iff]
        omega
      rw [hf, Finset.sum_insert (by simp)]
      ring

theorem determinant_eq [CommRing R] (N : Nat) : ∀ (n : Nat) (A : Nat → R), 1 ≤ n → n ≤ N →
    determinant N n A = (toMatrix N n A).det := by
  intro n
  induction n with
  | zero => intro A h; omega
  | succ n ih =>
    intro A _ hN
    cases n with
    | zero =>
      rw [Matrix.det_fin_one]
      simp [determinant, toMatrix]
    | succ n =>
      obtain ⟨s, e, _, h2⟩ := det_loop hN A (fun B => ih B (by omega) (by omega)) (n + 2) (le_refl _)
      unfold determinant
      rw [e, h2, Matrix.det_succ_row_zero]
      rw [Finset.filter_true_of_mem (fun f _ => f.2)]
      apply Finset.sum_congr rfl
      intro f _
      congr 2
      simp [toMatrix]

/-- The signless cofactors that `adjoint` stores. -/
theorem adjoint_eq [CommRing R] {n : Nat} (A adj : Nat → R) (i j : Fin (n + 1)) :
    adjoint (n + 1) A adj (i * (n + 1) + j)
      = (-1) ^ ((i : Nat) + j) * (toMatrix (n + 1) (n + 1) A).adjugate i j := by
  have hsq : ((-1 : R) ^ ((i : Nat) + j)) * (-1) ^ ((i : Nat) + j) = 1 := by
    rw [← mul_pow]; simp
  have hadj : (toMatrix (n + 1) (n + 1) A).adjugate i j = (-1) ^ ((i : Nat) + j) *
      ((toMatrix (n + 1) (n + 1) A).submatrix j.succAbove i.succAbove).det := by
    rw [Matrix.adjugate_fin_succ_eq_det_submatrix, Nat.add_comm]
  rw [hadj, ← mul_assoc, hsq, one_mul]
  cases n with
  | zero =>
    have hi : i = 0 := Fin.ext (by omega)
    have hj : j = 0 := Fin.ext (by omega)
    subst hi hj
    unfold adjoint
    simp
  | succ n =>
    unfold adjoint
    rw [if_neg (by omega)]
    simp only
    -- the loops
    have hinner : ∀ (a : Fin (n + 2)) (m : Nat), m ≤ n + 2 → ∀ s : AdjSt R,
        ∃ s', (List.range m).foldl (fun (s : AdjSt R) b =>
          (⟨Function.update s.adj (b * (n + 2) + a) (1 * determinant (n + 2) (n + 2 - 1)
            (getCofactor A s.temp a b (n + 2) (n + 2))), getCofactor A s.temp a b (n + 2) (n + 2)⟩ :
            AdjSt R)) s = s' ∧
        (∀ b : Fin (n + 2), (b : Nat) < m → s'.adj (b * (n + 2) + a) =
          ((toMatrix (n + 2) (n + 2) A).submatrix a.succAbove b.succAbove).det) ∧
        ∀ (b a' : Fin (n + 2)), a' ≠ a → s'.adj (b * (n + 2) + a') = s.adj (b * (n + 2) + a') := by
      intro a m
      induction m with
      | zero => intro _ s; exact ⟨s, rfl, by intro b h; omega, fun _ _ _ => rfl⟩
      | succ m ih =>
        intro hm s
        obtain ⟨s', e, h1, h2⟩ := ih (by omega) s
        rw [List.range_succ, List.foldl_append, e]
        refine ⟨_, rfl, ?_, ?_⟩
        · intro b hb
          simp only [List.foldl_cons, List.foldl_nil]
          by_cases hbm : (b : Nat) = m
          · rw [← hbm, Function.update_self, one_mul, show n + 2 - 1 = n + 1 by omega,
              determinant_eq (n + 2) (n + 1) _ (by omega) (by omega),
              getCofactor_eq A s'.temp (by omega) (le_refl _) a b]
          · rw [Function.update_of_ne, h1 b (by omega)]
            intro he
            apply hbm
            have : (b : Nat) * (n + 2) = m * (n + 2) := by omega
            exact Nat.eq_of_mul_eq_mul_right (by omega) this
        · intro b a' ha'
          simp only [List.foldl_cons, List.foldl_nil]
          rw [Function.update_of_ne, h2 b a' ha']
          intro he
          apply ha'
          apply Fin.ext
          have h3 : ((b : Nat) * (n + 2) + a') % (n + 2) = (m * (n + 2) + a) % (n + 2) := by rw [he]
          rwa [Nat.mul_add_mod_of_lt a'.2, Nat.mul_add_mod_of_lt a.2] at h3
    have houter : ∀ (m : Nat), m ≤ n + 2 →
        ∃ s', (List.range m).foldl (fun s a => (List.range (n + 2)).foldl (fun (s : AdjSt R) b =>
          (⟨Function.update s.adj (b * (n + 2) + a) (1 * determinant (n + 2) (n + 2 - 1)
            (getCofactor A s.temp a b (n + 2) (n + 2))), getCofactor A s.temp a b (n + 2) (n + 2)⟩ :
            AdjSt R)) s) ⟨adj, fun _ => 0⟩ = s' ∧
        ∀ (a b : Fin (n + 2)), (a : Nat) < m → s'.adj (b * (n + 2) + a) =
          ((toMatrix (n + 2) (n + 2) A).submatrix a.succAbove b.succAbove).det := by
      intro m
      induction m with
      | zero => intro _; exact ⟨_, rfl, by intro a b h; omega⟩
      | succ m ih =>
        intro hm
        obtain ⟨s', e, h1⟩ := ih (by omega)
        rw [List.range_succ (n := m), List.foldl_append, e]
        obtain ⟨s'', e'', h3, h4⟩ := hinner ⟨m, by omega⟩ (n + 2) (le_refl _) s'
        refine ⟨s'', e'', ?_⟩
        intro a b ha
        by_cases ham : (a : Nat) = m
        · have : a = ⟨m, by omega⟩ := Fin.ext ham
          rw [this]
          exact h3 b b.2
        · rw [h4 b a (fun h => ham (by rw [h])), h1 a b (by omega)]
    obtain ⟨s', e, h⟩ := houter (n + 2) (le_refl _)
    have := h j i j.2
    rw [← this, ← e]

end Knor.Linalg
