import Verif.Model.Score
import Verif.Spec.Score
import Verif.Lemmas.AndersonDarling

/-!
# Lemmas about the decisions of x-means and g-means
-/

namespace Knor.Score

open Knor

/-! ## The Bayesian information criterion -/

theorem foldl_total (d : Nat → ℝ) (l : List Nat) (a : ℝ) :
    l.foldl (fun s r => s + d r) a = a + (l.map d).sum := by
  induction l generalizing a with
  | nil => simp
  | cons x l ih => simp only [List.foldl_cons, List.map_cons, List.sum_cons]; rw [ih]; ring

theorem total_eq (d : Nat → ℝ) (ml mr : List Nat) : total d ml mr = ((ml ++ mr).map d).sum := by
  unfold total
  rw [foldl_total, foldl_total]
  simp

theorem total_mul (s : ℝ) (d : Nat → ℝ) (ml mr : List Nat) :
    total (fun r => s * d r) ml mr = s * total d ml mr := by
  rw [total_eq, total_eq, List.sum_map_mul_left]

/-- The difference of the scores in closed form. -/
theorem bic_scores (dmin : ℝ) (ncol : Nat) (nl nr : Int) (pd cd : Nat → ℝ) (ml mr : List Nat) (hN : 3 ≤ nl + nr) :
    (bic dmin ncol nl nr pd cd ml mr).pscore =
        -((nl + nr : Int) : ℝ) / 2 * Real.log (2 * Real.pi)
          - ((nl + nr : Int) : ℝ) * ncol / 2 * Real.log (total pd ml mr / (((nl + nr : Int) : ℝ) - 1))
          - (((nl + nr : Int) : ℝ) - 1) / 2 - (ncol + 1) / 2 * Real.log ((nl + nr : Int) : ℝ) ∧
    (bic dmin ncol nl nr pd cd ml mr).cscore =
        ((nl + nr : Int) : ℝ) * Real.log ((nl + nr : Int) : ℝ) - ((nl + nr : Int) : ℝ) * Real.log (2 * Real.pi)
          - ((nl + nr : Int) : ℝ) * ncol * Real.log (total cd ml mr / (((nl + nr : Int) : ℝ) - 2))
          - (((nl + nr : Int) : ℝ) - 2) - (2 * ncol + 2) * Real.log ((nl + nr : Int) : ℝ) := by
  have h3 : (3 : ℝ) ≤ (nl : ℝ) + (nr : ℝ) := by exact_mod_cast hN
  unfold bic
  dsimp only
  push_cast
  rw [if_pos (by linarith), if_pos (by linarith)]
  constructor <;> ring

/-! ## The Anderson-Darling statistic -/

theorem foldl_plus (l : List ℝ) (a : ℝ) : l.foldl (· + ·) a = a + l.sum := by
  induction l generalizing a with
  | nil => simp
  | cons x l ih => simp only [List.foldl_cons, List.sum_cons]; rw [ih]; ring

theorem foldl_sq (l : List ℝ) (m a : ℝ) :
    l.foldl (fun s x => s + (x - m) * (x - m)) a = a + (l.map fun x => (x - m) ^ 2).sum := by
  induction l generalizing a with
  | nil => simp
  | cons x l ih => simp only [List.foldl_cons, List.map_cons, List.sum_cons]; rw [ih]; ring

theorem average_eq (l : List ℝ) : average l = Spec.mean l := by
  unfold average Spec.mean
  rw [foldl_plus, zero_add]

theorem deviation_eq (l : List ℝ) : deviation l = Spec.sd l := by
  unfold deviation Spec.sd
  rw [foldl_sq, zero_add, average_eq]

theorem mean_perm {l l' : List ℝ} (h : l.Perm l') : Spec.mean l = Spec.mean l' := by
  unfold Spec.mean
  rw [h.sum_eq, h.length_eq]

theorem sd_perm {l l' : List ℝ} (h : l.Perm l') : Spec.sd l = Spec.sd l' := by
  unfold Spec.sd
  rw [mean_perm h, h.length_eq, (h.map _).sum_eq]

/-- The sorted sample. -/
noncomputable def sorted (xs : List ℝ) : List ℝ := xs.mergeSort fun a b => decide (a ≤ b)

theorem sorted_perm (xs : List ℝ) : (sorted xs).Perm xs := List.mergeSort_perm _ _

theorem sorted_pairwise (xs : List ℝ) : (sorted xs).Pairwise (· ≤ ·) := by
  have := List.pairwise_mergeSort (le := fun a b : ℝ => decide (a ≤ b))
    (by intro a b c h1 h2; simp only [decide_eq_true_eq] at *; exact h1.trans h2)
    (by intro a b; simp only [Bool.or_eq_true, decide_eq_true_eq]; exact le_total a b) xs
  exact this.imp fun h => of_decide_eq_true h

theorem sorted_unique {xs ys : List ℝ} (h : ys.Perm xs) (hs : ys.Pairwise (· ≤ ·)) : ys = sorted xs :=
  (h.trans (sorted_perm xs).symm).eq_of_pairwise' (r := (· ≤ ·)) hs (sorted_pairwise xs)

theorem sorted_congr {xs ys : List ℝ} (h : ys.Perm xs) : sorted ys = sorted xs :=
  sorted_unique ((sorted_perm ys).trans h) (sorted_pairwise ys)

theorem statistic_eq (phi : ℝ → ℝ) (xs : List ℝ) : statistic phi xs =
    if xs.length ≤ 1 ∨ Spec.sd xs = 0 then none
    else some (adSum phi ((sorted xs).map fun x => (x - Spec.mean xs) / Spec.sd xs)) := by
  have hp := sorted_perm xs
  have e : xs.mergeSort (fun a b => decide (a ≤ b)) = sorted xs := rfl
  unfold statistic
  simp only [e, average_eq, deviation_eq, hp.length_eq, mean_perm hp, sd_perm hp]

theorem foldl_add_sum (n : Nat) (f : Nat → ℝ) (a : ℝ) :
    (List.range n).foldl (fun A i => A + f i) a = a + ∑ i ∈ Finset.range n, f i := by
  induction n with
  | zero => simp
  | succ n ih =>
    rw [List.range_succ, List.foldl_append, ih, Finset.sum_range_succ]
    simp only [List.foldl_cons, List.foldl_nil]
    ring

theorem adSum_eq (phi : ℝ → ℝ) (Y : List ℝ) : adSum phi Y =
    -(Y.length : ℝ) - 1 / Y.length * ∑ i ∈ Finset.range Y.length,
      (2 * (i : ℝ) + 1) * (Real.log (phi (Y.getD i 0)) + Real.log (1 - phi (Y.getD (Y.length - 1 - i) 0))) := by
  unfold adSum
  rw [foldl_add_sum, Finset.mul_sum, sub_eq_add_neg, ← Finset.sum_neg_distrib]
  congr 1
  apply Finset.sum_congr rfl
  intro i _
  have : ((2 * (i + 1) - 1 : Nat) : ℝ) = 2 * (i : ℝ) + 1 := by
    rw [show 2 * (i + 1) - 1 = 2 * i + 1 by omega]; push_cast; ring
  rw [this]
  ring

theorem adSum_nonneg (phi : ℝ → ℝ) (hphi : ∀ x, 0 < phi x ∧ phi x < 1) (Y : List ℝ) (hY : 0 < Y.length) :
    0 ≤ adSum phi Y := by
  rw [adSum_eq]
  exact ad_nonneg Y.length hY (fun i => phi (Y.getD i 0)) fun i => hphi _

/-! ### Change of location and scale -/

theorem mean_affine (a b : ℝ) (xs : List ℝ) (h : xs ≠ []) :
    Spec.mean (xs.map fun x => a * x + b) = a * Spec.mean xs + b := by
  have hl : (0 : ℝ) < xs.length := by exact_mod_cast List.length_pos_iff.2 h
  have hs : (xs.map fun x => a * x + b).sum = a * xs.sum + xs.length * b := by
    clear h hl
    induction xs with
    | nil => simp
    | cons x l ih => simp only [List.map_cons, List.sum_cons, ih, List.length_cons]; push_cast; ring
  unfold Spec.mean
  rw [hs, List.length_map]
  field_simp

theorem sd_affine (a b : ℝ) (ha : 0 < a) (xs : List ℝ) (h : xs ≠ []) :
    Spec.sd (xs.map fun x => a * x + b) = a * Spec.sd xs := by
  unfold Spec.sd
  rw [mean_affine a b xs h, List.map_map, List.length_map]
  have : ((fun x => (x - (a * Spec.mean xs + b)) ^ 2) ∘ fun x => a * x + b) =
      fun x => a ^ 2 * (x - Spec.mean xs) ^ 2 := by
    funext x; simp only [Function.comp_apply]; ring
  rw [this, List.sum_map_mul_left, mul_div_assoc, Real.sqrt_mul (by positivity), Real.sqrt_sq ha.le]

theorem sorted_affine (a b : ℝ) (ha : 0 < a) (xs : List ℝ) :
    sorted (xs.map fun x => a * x + b) = (sorted xs).map fun x => a * x + b := by
  symm
  apply sorted_unique ((sorted_perm xs).map _)
  rw [List.pairwise_map]
  exact (sorted_pairwise xs).imp fun h => by
    have := mul_le_mul_of_nonneg_left h ha.le
    linarith

theorem statistic_affine (phi : ℝ → ℝ) (a b : ℝ) (ha : 0 < a) (xs : List ℝ) :
    statistic phi (xs.map fun x => a * x + b) = statistic phi xs := by
  rw [statistic_eq, statistic_eq, List.length_map]
  by_cases h : xs = []
  · subst h; simp
  rw [sd_affine a b ha xs h, mean_affine a b xs h, sorted_affine a b ha]
  by_cases hsd : Spec.sd xs = 0
  · rw [if_pos (Or.inr (by rw [hsd, mul_zero])), if_pos (Or.inr hsd)]
  have e : (xs.length ≤ 1 ∨ a * Spec.sd xs = 0) ↔ (xs.length ≤ 1 ∨ Spec.sd xs = 0) := by
    simp [ha.ne']
  simp only [e, List.map_map]
  congr 3
  apply List.map_congr_left
  intro x _
  simp only [Function.comp_apply]
  have := ha.ne'
  field_simp
  ring

/-- `linalg::scale` has no influence on the statistic. -/
theorem statistic_scale (phi : ℝ → ℝ) {v w : List ℝ} (h : Linalg.scale Real.sqrt v = .ok w) :
    statistic phi w = statistic phi v := by
  unfold Linalg.scale at h
  cases e : Linalg.accumulateInt v 0 with
  | error x => rw [e] at h; cases h
  | ok sum =>
    rw [e] at h
    dsimp only at h
    split at h
    · cases h
    · rename_i hne
      cases h
      have hpos : 0 < Real.sqrt (v.foldl (fun s x => s + (x - (sum : ℝ) / v.length) * (x - (sum : ℝ) / v.length)) 0 /
          v.length) := lt_of_le_of_ne (Real.sqrt_nonneg _) (Ne.symm hne)
      rw [← statistic_affine phi _ (-((sum : ℝ) / v.length) /
        Real.sqrt (v.foldl (fun s x => s + (x - (sum : ℝ) / v.length) * (x - (sum : ℝ) / v.length)) 0 / v.length))
        (inv_pos.2 hpos) v]
      congr 1
      apply List.map_congr_left
      intro x _
      field_simp
      ring

theorem adScores_eq (phi : ℝ → ℝ) (nrow : Nat) (part : Nat → Nat) (cd : Nat → ℝ) :
    ∀ (ks : List Nat) (f : Nat → Option ℝ), adScores phi nrow part cd ks = .ok f →
      ∀ p, f p = if p ∈ ks then statistic phi (adVec nrow part cd p) else none
  | [], f, h, p => by
    cases h; simp
  | k :: ks, f, h, p => by
    unfold adScores at h
    cases e : Linalg.scale Real.sqrt (adVec nrow part cd k) with
    | error x => rw [e] at h; cases h
    | ok v =>
      rw [e] at h
      dsimp only at h
      cases e2 : adScores phi nrow part cd ks with
      | error x => rw [e2] at h; cases h
      | ok g =>
        rw [e2] at h
        cases h
        have ih := adScores_eq phi nrow part cd ks g e2 p
        dsimp only
        by_cases hp : p = k
        · rw [if_pos hp, if_pos (by simp [hp]), statistic_scale phi e, hp]
        · rw [if_neg hp, ih]
          simp [hp]

/-! ## Runs -/

section
open Xmeans Hclust

variable {R D : Type _} {n : Nat} [Zero R] [Add R] [Mul R] [Div R] [NatCast R] [IntCast R] [LE R] [DecidableLE R]
    [LT D] [DecidableLT D] {alg : Alg} {c : Cfg R D n} {sched : Nat → Nat → List Nat}

/-- The loop only asks for the decisions of its own and later rounds. -/
theorem loop_congr {dec dec' : Nat → List Nat → List Nat} : ∀ (fuel t : Nat) (s : XSt R n),
    (∀ t', t ≤ t' → dec t' = dec' t') → loop alg c dec sched fuel t s = loop alg c dec' sched fuel t s
  | 0, _, _, _ => rfl
  | fuel + 1, t, s, h => by
    unfold Xmeans.loop
    cases meanPhase c s with
    | error e => rfl
    | ok s1 =>
      dsimp only
      cases iterate alg c (sched t) s1 with
      | error e => rfl
      | ok s2 =>
        dsimp only
        rw [h t le_rfl]
        cases partitionDecision alg c (dec' t s2.h.keys) s2 with
        | error e => rfl
        | ok s3 =>
          dsimp only
          split
          · rfl
          · cases initSplits c s3.h with
            | error e => rfl
            | ok h4 =>
              dsimp only
              split
              · rfl
              · exact loop_congr fuel (t + 1) _ fun t' ht => h t' (by omega)

/-- A run with computed decisions is a run with given decisions, or stops with the fault of a decision. -/
theorem loopD_sim {dec : Nat → St R n → Res (List Nat)}
    (hdec : ∀ t s rej, dec t s = .ok rej → rej.Nodup ∧ ∀ p ∈ rej, p ∈ s.keys) : ∀ (fuel t : Nat) (s : XSt R n),
    ∃ dec' : Nat → List Nat → List Nat, (∀ t l, l.Nodup → (dec' t l).Nodup ∧ ∀ p ∈ dec' t l, p ∈ l) ∧
      (loopD alg c dec sched fuel t s = loop alg c dec' sched fuel t s ∨
        ∃ t' s' e, dec t' s' = .error e ∧ loopD alg c dec sched fuel t s = .error e)
  | 0, t, s => ⟨fun _ _ => [], by simp, Or.inl rfl⟩
  | fuel + 1, t, s => by
    have triv : ∀ t l, l.Nodup → ((fun (_ : Nat) (_ : List Nat) => ([] : List Nat)) t l).Nodup ∧
      ∀ p ∈ (fun (_ : Nat) (_ : List Nat) => ([] : List Nat)) t l, p ∈ l := by simp
    cases e1 : meanPhase c s with
    | error e => exact ⟨_, triv, Or.inl (by unfold loopD Xmeans.loop; simp only [e1])⟩
    | ok s1 =>
      cases e2 : iterate alg c (sched t) s1 with
      | error e => exact ⟨_, triv, Or.inl (by unfold loopD Xmeans.loop; simp only [e1, e2])⟩
      | ok s2 =>
        cases e3 : dec t s2.h with
        | error e => exact ⟨_, triv, Or.inr ⟨t, s2.h, e, e3, by unfold loopD; simp only [e1, e2, e3]⟩⟩
        | ok rej =>
          obtain ⟨hnd, hsub⟩ := hdec t s2.h rej e3
          -- the decision of this round, and those of the later rounds
          have mk : ∀ d : Nat → List Nat → List Nat, (∀ t l, l.Nodup → (d t l).Nodup ∧ ∀ p ∈ d t l, p ∈ l) →
              ∀ t' l, l.Nodup → ((Function.update d t fun l => if l = s2.h.keys then rej else []) t' l).Nodup ∧
                ∀ p ∈ (Function.update d t fun l => if l = s2.h.keys then rej else []) t' l, p ∈ l := by
            intro d hd t' l hl
            by_cases ht : t' = t
            · subst ht
              rw [Function.update_self]
              by_cases hk : l = s2.h.keys
              · rw [if_pos hk]; exact ⟨hnd, fun p hp => hk ▸ hsub p hp⟩
              · rw [if_neg hk]; simp
            · rw [Function.update_of_ne ht]; exact hd t' l hl
          cases e4 : partitionDecision alg c rej s2 with
          | error e =>
            refine ⟨_, mk _ triv, Or.inl ?_⟩
            unfold loopD Xmeans.loop
            simp only [e1, e2, e3, e4, Function.update_self, if_true]
          | ok s3 =>
            by_cases hcap : c.atCap s3.h = true
            · refine ⟨_, mk _ triv, Or.inl ?_⟩
              unfold loopD Xmeans.loop
              simp only [e1, e2, e3, e4, Function.update_self, if_true, hcap]
            · cases e5 : initSplits c s3.h with
              | error e =>
                refine ⟨_, mk _ triv, Or.inl ?_⟩
                unfold loopD Xmeans.loop
                simp only [e1, e2, e3, e4, e5, Function.update_self, if_true, hcap]
              | ok h4 =>
                by_cases hk : h4.keys = []
                · refine ⟨_, mk _ triv, Or.inl ?_⟩
                  unfold loopD Xmeans.loop
                  simp only [e1, e2, e3, e4, e5, Function.update_self, if_true, hcap, hk]
                · obtain ⟨d, hd, hh⟩ := loopD_sim hdec fuel (t + 1) { s3 with h := h4 }
                  refine ⟨_, mk d hd, ?_⟩
                  rcases hh with hh | ⟨t', s', e, hh1, hh2⟩
                  · left
                    unfold loopD Xmeans.loop
                    simp only [e1, e2, e3, e4, e5, Function.update_self, if_true, hcap, hk, if_false]
                    rw [hh]
                    apply loop_congr
                    intro t' ht
                    rw [Function.update_of_ne (by omega)]
                  · right
                    refine ⟨t', s', e, hh1, ?_⟩
                    unfold loopD
                    simp only [e1, e2, e3, e4, e5, hcap, hk, if_false]
                    exact hh2

theorem runD_sim {dec : Nat → St R n → Res (List Nat)}
    (hdec : ∀ t s rej, dec t s = .ok rej → rej.Nodup ∧ ∀ p ∈ rej, p ∈ s.keys) (it : HInit R n) (fuel : Nat) :
    ∃ dec' : Nat → List Nat → List Nat, (∀ t l, l.Nodup → (dec' t l).Nodup ∧ ∀ p ∈ dec' t l, p ∈ l) ∧
      (runD alg c it dec sched fuel = Xmeans.run alg c it dec' sched fuel ∨
        ∃ t' s' e, dec t' s' = .error e ∧ runD alg c it dec sched fuel = .error e) := by
  cases e0 : start c it with
  | error e =>
    refine ⟨fun _ _ => [], by simp, Or.inl ?_⟩
    unfold runD Xmeans.run
    simp only [e0]
  | ok s =>
    obtain ⟨d, hd, hh⟩ := loopD_sim (alg := alg) (c := c) (sched := sched) hdec fuel 0 s
    refine ⟨d, hd, ?_⟩
    unfold runD Xmeans.run
    simp only [e0]
    rcases hh with hh | ⟨t', s', e, hh1, hh2⟩
    · left
      rw [hh]
      cases Xmeans.loop alg c d sched fuel 0 s with
      | error e => rfl
      | ok o => cases o <;> rfl
    · right; exact ⟨t', s', e, hh1, by rw [hh2]⟩

end

end Knor.Score
