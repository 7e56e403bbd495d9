import Mathlib.Algebra.Order.Field.Rat
import Verif.Lemmas.DistMatrix
import Verif.Spec.DistMatrix

/-! # Properties C18 and C19: the table of half centroid distances -/

namespace Knor.DistMatrix

open Knor

variable {R D : Type _} {k n : Nat}

/-- **C18.** For a table created for `k ≥ 2` clusters and every history of writes to pairs of
distinct clusters, no assertion fires and no access is out of bounds, and reading any pair of
distinct clusters in either order returns the last value written for that unordered pair, or
`big` (`DBL_MAX`) if there was none; reading `(a, a)` returns `big`. -/
theorem C18_table_is_unordered_pair_map (big : D) (k : Nat) (hk : 2 ≤ k)
    (hist : List (Nat × Nat × D)) (hh : ∀ w ∈ hist, w.1 < k ∧ w.2.1 < k ∧ w.1 ≠ w.2.1) :
    ∃ m0 m, create big k = .ok m0 ∧ writes m0 hist = .ok m ∧
      ∀ a b, a < k → b < k →
        m.get big a b = .ok (if a = b then big else (lastWrite hist a b).getD big) := by
  obtain ⟨m0, e0, w0, g0⟩ := create_wf (big := big) (k := k) (by omega)
  have gen : ∀ (l : List (Nat × Nat × D)) (m1 : DistMatrix D),
      (∀ w ∈ l, w.1 < k ∧ w.2.1 < k ∧ w.1 ≠ w.2.1) → WF k m1 →
      ∃ m, writes m1 l = .ok m ∧ ∀ a b, a < k → b < k →
        m.get big a b = if a = b then .ok big
          else match lastWrite l a b with
            | some v => .ok v
            | none => m1.get big a b := by
    intro l
    induction l with
    | nil =>
      intro m1 _ _
      refine ⟨m1, rfl, ?_⟩
      intro a b _ _
      by_cases hab : a = b
      · subst hab; simp [get_self]
      · simp [hab, lastWrite]
    | cons w l ih =>
      obtain ⟨i, j, v⟩ := w
      intro m1 hl hw
      obtain ⟨h1, h2, h3⟩ := hl (i, j, v) (by simp)
      obtain ⟨m2, e2, w2, g2⟩ := set_spec (big := big) hw h1 h2 h3 v
      obtain ⟨m, e, g⟩ := ih m2 (fun w hw' => hl w (by simp [hw'])) w2
      refine ⟨m, by simp [writes, e2, e], ?_⟩
      intro a b ha hb
      rw [g a b ha hb]
      by_cases hab : a = b
      · simp [hab]
      · simp only [hab, if_false, lastWrite]
        cases lastWrite l a b with
        | some v' => rfl
        | none =>
          simp only
          rw [g2 a b ha hb]
          by_cases hp : (a = i ∧ b = j) ∨ (a = j ∧ b = i)
          · simp [hab, hp]
          · simp [hp]
  obtain ⟨m, e, g⟩ := gen hist m0 hh w0
  refine ⟨m0, m, e0, e, ?_⟩
  intro a b ha hb
  rw [g a b ha hb]
  by_cases hab : a = b
  · simp [hab]
  · simp only [hab, if_false]
    cases lastWrite hist a b with
    | some v => rfl
    | none => simp [g0 a b ha hb]

/-- A history on three clusters: the pair {0,2} is written twice, in both orders. -/
example :
    ((create 999 3).toOption.bind fun m0 => (writes m0 [(0, 2, 5), (1, 2, 6), (2, 0, 7)]).toOption).map
      (fun m => (m.get 999 0 2, m.get 999 2 0, m.get 999 2 1, m.get 999 0 1, m.get 999 1 1))
    = some (.ok 7, .ok 7, .ok 6, .ok 999, .ok (999 : Nat)) := by decide

/-- For one cluster the table cannot be created: the constructor aborts. -/
theorem C18_limit_one_cluster_aborts (big : D) (k : Nat) (hk : k ≤ 1) :
    create big k = .error .assertFail := by
  unfold create; rw [if_neg (by omega)]

/-- **C19.** After recomputing the table (from any table and s-values of the right size) each
entry is half the Euclidean distance of its two centroids, and each cluster's s-value is the least
of its entries (capped at `big`): it is a lower bound of them, and it is one of them unless all
entries are at least `big`, when it is `big`. -/
theorem C19_half_distances_and_separation [Field D] [LinearOrder D] (big : D)
    (eucl : Row R n → Row R n → D) (hsym : ∀ x y, eucl x y = eucl y x)
    (cents : Fin k → Row R n) (hk : 2 ≤ k) (m1 : DistMatrix D) (h1 : TableFor big k m1)
    (sv : Fin k → D) :
    ∃ m sv', computeDist big eucl cents m1 sv = .ok (m, sv') ∧
      (∀ a b : Fin k, a ≠ b → m.get big a b = .ok (eucl (cents a) (cents b) / 2)) ∧
      (∀ a b : Fin k, a ≠ b → sv' a ≤ eucl (cents a) (cents b) / 2) ∧
      (∀ a, (∃ b, b ≠ a ∧ eucl (cents a) (cents b) / 2 < big) →
        ∃ b, b ≠ a ∧ sv' a = eucl (cents a) (cents b) / 2) ∧
      (∀ a, (∀ b, b ≠ a → big ≤ eucl (cents a) (cents b) / 2) → sv' a = big) := by
  have hw : WF k m1 := h1.wf hk
  obtain ⟨m, sv', e, _, g1, g2, g3, g4⟩ := computeDist_spec (big := big) (eucl := eucl)
    (cents := cents) (by omega) hsym m1 sv hw
  refine ⟨m, sv', e, g1, g2, ?_, ?_⟩
  · rintro a ⟨b, hb, hlt⟩
    rcases g4 a with h | h
    · exact absurd (lt_of_le_of_lt (h ▸ g2 a b (Ne.symm hb)) hlt) (lt_irrefl _)
    · exact h
  · intro a h
    rcases g4 a with h' | ⟨b, hb, he⟩
    · exact h'
    · exact le_antisymm (g3 a) (he ▸ h b hb)

/-- Three one-dimensional centroids 0, 4, 10: entries 2, 5, 3 and s-values 2, 2, 3. -/
example :
    let eucl : Row ℚ 1 → Row ℚ 1 → ℚ := fun x y => if x 0 ≤ y 0 then y 0 - x 0 else x 0 - y 0
    let cents : Fin 3 → Row ℚ 1 := fun c _ => if c = 0 then 0 else if c = 1 then 4 else 10
    ((create (1000 : ℚ) 3).toOption.bind fun m0 =>
        (computeDist 1000 eucl cents m0 (fun _ => 1)).toOption).map
      (fun p => (p.1.get 1000 0 1, p.1.get 1000 2 0, p.1.get 1000 1 2, p.2 0, p.2 1, p.2 2))
    = some (.ok 2, .ok 5, .ok 3, 2, 2, 3) := by decide +kernel

end Knor.DistMatrix
