import Mathlib.Analysis.Convex.Mul
import Mathlib.Analysis.Convex.Jensen
import Mathlib.Algebra.Order.BigOperators.Ring.Finset
import Mathlib.Tactic.Linarith
import Mathlib.Tactic.FieldSimp
import Mathlib.Tactic.Ring
import Mathlib.Tactic.Positivity
import Verif.Model.Fcm
import Verif.Spec.Fuzzy
import Verif.Lemmas.ParDet
import Verif.Lemmas.Init

namespace Knor.Fcm

open Knor Knor.Par Knor.Partition Knor.Kmeans Knor.Spec

variable {R S : Type _} {k n : Nat}

theorem colSum_eq [AddCommMonoid R] (f : Fin k → R) : colSum f = ∑ c, f c := by
  have h : ∑ c, f c = ((List.finRange k).map f).sum := by
    rw [← List.sum_ofFn, List.ofFn_eq_map]
  rw [h]
  unfold colSum
  cases List.finRange k with
  | nil => rfl
  | cons c0 l =>
    show l.foldl (fun s c => s + f c) (f c0) = _
    rw [foldl_add2]; simp

theorem entry_pos [Field R] [LinearOrder R] [IsStrictOrderedRing R] {root : R → R}
    (hroot : ∀ x, 0 < x → 0 < root x) (d : Option R) : 0 < entry root d := by
  have he : (0 : R) < eps := by unfold eps; positivity
  cases d with
  | none => exact he
  | some d =>
    unfold entry
    simp only
    split
    · next h => exact hroot _ (by positivity)
    · exact he

/-- The memberships computed in an iteration, before the power. -/
def memb [Field R] [LT R] [DecidableLT R] (root : R → R)
    (dist : Row R n → Row R n → Option R) (data : Nat → Row R n) (centers : Fin k → Row R n)
    (r : Nat) (c : Fin k) : R :=
  entry root (dist (data r) (centers c)) / ∑ c', entry root (dist (data r) (centers c'))

theorem memb_ok [Field R] [LinearOrder R] [IsStrictOrderedRing R] {root : R → R}
    (hroot : ∀ x, 0 < x → 0 < root x) (hk : 0 < k)
    (dist : Row R n → Row R n → Option R) (data : Nat → Row R n) (centers : Fin k → Row R n)
    (r : Nat) : Membership (memb root dist data centers r) := by
  have : Nonempty (Fin k) := ⟨⟨0, hk⟩⟩
  have hp : 0 < ∑ c', entry root (dist (data r) (centers c')) :=
    Finset.sum_pos (fun c _ => entry_pos hroot _) Finset.univ_nonempty
  refine ⟨fun c => div_pos (entry_pos hroot _) hp, ?_⟩
  unfold memb
  rw [← Finset.sum_div, div_self (ne_of_gt hp)]

theorem foldl_mrow [Field R] (data : Nat → Row R n) (um : Nat → Fin k → R) (l : List Nat)
    (a : Fin k → Row R n) (c : Fin k) (j : Fin n) :
    l.foldl (fun (a : Fin k → Row R n) r c j => a c j + um r c * data r j) a c j
      = a c j + (l.map fun r => um r c * data r j).sum := by
  induction l generalizing a with
  | nil => simp
  | cons r l ih => simp only [List.foldl_cons]; rw [ih]; simp [add_assoc]

theorem foldl_threads [AddCommMonoid R] (prod : Nat → Fin k → Row R n) (l : List Nat)
    (a : Fin k → Row R n) (c : Fin k) (j : Fin n) :
    l.foldl (fun (s : Fin k → Row R n) t c j => s c j + prod t c j) a c j
      = a c j + (l.map fun t => prod t c j).sum := by
  induction l generalizing a with
  | nil => simp
  | cons r l ih => simp only [List.foldl_cons]; rw [ih]; simp [add_assoc]

/-- One iteration in closed form, for every number of threads and every interleaving. -/
theorem iteration_closed [Field R] [LinearOrder R] {root : R → R}
    {dist : Row R n → Row R n → Option R} {data : Nat → Row R n} {N nt fuzz : Nat}
    {s1 s2 : List Nat} (s : FState R k n) (hn : 0 < N) (hnt : 0 < nt) (hlt : N < 4294967296)
    (hc1 : Complete (effThreads nt N) (threadRows N nt) s1)
    (hc2 : Complete (effThreads nt N) (threadRows N nt) s2) :
    iteration root dist data N nt fuzz s1 s2 s = .ok
      { centers := fun c j =>
          (∑ r ∈ Finset.range N, memb root dist data s.centers r c ^ fuzz * data r j) /
            ∑ r ∈ Finset.range N, memb root dist data s.centers r c ^ fuzz
        prev := s.centers
        um := fun r c => if r < N then memb root dist data s.centers r c ^ fuzz else s.um r c } := by
  have hsp := split_threadRows hn hnt hlt
  obtain ⟨p, hp, hpm, hpo, -⟩ := run_det (f := eRow root dist data s.centers)
    (g := fun r _ => .ok fun c => entry root (dist (data r) (s.centers c)))
    (h := fun _ _ _ u => u) (fun _ _ _ => rfl)
    (s0 := { mem := s.um, acc := fun _ => (), todo := threadRows N nt }) hsp hc1
    (fun r _ => ⟨_, rfl⟩)
  have hum : contribution fuzz N p.mem =
      fun r c => if r < N then memb root dist data s.centers r c ^ fuzz else s.um r c := by
    funext r c
    unfold contribution
    by_cases hr : r < N
    · rw [if_pos hr, if_pos hr, colSum_eq]
      have := hpm r hr
      simp only [Except.ok.injEq] at this
      rw [← this]; rfl
    · rw [if_neg hr, if_neg hr, hpo r (by omega)]
  obtain ⟨q, hq, hqm, hqo, hqa⟩ := run_det (f := mRow (k := k) data)
    (g := fun _ m => .ok m) (h := fun r _ m a c j => a c j + m c * data r j) (fun _ _ _ => rfl)
    (s0 := { mem := contribution fuzz N p.mem, acc := fun _ _ _ => 0, todo := threadRows N nt })
    hsp hc2 (fun r _ => ⟨_, rfl⟩)
  have hqmem : q.mem = contribution fuzz N p.mem := by
    funext r
    by_cases hr : r < N
    · have := hqm r hr
      simp only [Except.ok.injEq] at this
      exact this.symm
    · exact hqo r (by omega)
  unfold iteration
  rw [hp]
  simp only
  rw [hq]
  simp only [Except.ok.injEq]
  have hprod : ∀ t c j, q.acc t c j
      = ((threadRows N nt t).map fun r => contribution fuzz N p.mem r c * data r j).sum := by
    intro t c j
    rw [hqa t]
    simp only [hqmem]
    rw [foldl_mrow data]; simp
  have hT : 0 < effThreads nt N := by
    rcases Nat.eq_zero_or_pos (effThreads nt N) with h0 | h0
    · obtain ⟨t, ht⟩ := (hsp.mem_iff 0).2 hn
      rw [hsp.idle t (by omega)] at ht
      simp at ht
    · exact h0
  have hsum : ∀ c j, (if effThreads nt N = 1 then q.acc 0
      else (List.range' 2 (effThreads nt N - 2)).foldl (fun (s : Fin k → Row R n) t c j => s c j + q.acc t c j)
        fun c j => q.acc 0 c j + q.acc 1 c j) c j
      = ∑ r ∈ Finset.range N, contribution fuzz N p.mem r c * data r j := by
    intro c j
    rw [← hsp.sum]
    split
    · next h => rw [h]; simp [hprod]
    · next h =>
      rw [foldl_threads]
      obtain ⟨m, hm⟩ : ∃ m, effThreads nt N = m + 2 := ⟨effThreads nt N - 2, by omega⟩
      rw [hm]
      have : List.range (m + 2) = 0 :: 1 :: List.range' 2 m := by
        rw [List.range_eq_range', List.range'_succ, List.range'_succ]
      rw [this]
      simp only [List.map_cons, List.sum_cons, Nat.add_sub_cancel]
      rw [← hprod, ← hprod, ← add_assoc]
      congr 1
      apply congrArg
      apply List.map_congr_left
      intro t _
      exact hprod t c j
  have hden : ∀ c, (List.range N).foldl (fun s r => s + q.mem r c) 0
      = ∑ r ∈ Finset.range N, memb root dist data s.centers r c ^ fuzz := by
    intro c
    rw [foldl_add2, zero_add, sum_map_range, hqmem, hum]
    apply Finset.sum_congr rfl
    intro r hr
    exact if_pos (Finset.mem_range.1 hr)
  have hnum : ∀ c j, ∑ r ∈ Finset.range N, contribution fuzz N p.mem r c * data r j
      = ∑ r ∈ Finset.range N, memb root dist data s.centers r c ^ fuzz * data r j := by
    intro c j
    apply Finset.sum_congr rfl
    intro r hr
    have : contribution fuzz N p.mem r c = memb root dist data s.centers r c ^ fuzz := by
      rw [hum]; exact if_pos (Finset.mem_range.1 hr)
    rw [this]
  congr 1
  · funext c j
    show (if effThreads nt N = 1 then q.acc 0 else _) c j / _ = _
    rw [hsum, hden, hnum]
  · rw [hqmem, hum]

/-- Larger distance, smaller weight. -/
theorem root_anti [Field R] [LinearOrder R] [IsStrictOrderedRing R] {m : Nat} {root : R → R}
    (hroot : IsRoot m root) {a b : R} (ha : 0 < a) (hb : 0 < b) :
    root (1 / a) < root (1 / b) ↔ b < a := by
  have h1 := hroot (1 / a) (by positivity)
  have h2 := hroot (1 / b) (by positivity)
  have key : ∀ {x y : R}, 0 < x → 0 < y → root (1 / x) < root (1 / y) → y < x := by
    intro x y hx hy h
    have h1 := hroot (1 / x) (by positivity)
    have h2 := hroot (1 / y) (by positivity)
    have := pow_le_pow_left₀ h1.1.le h.le (m - 1)
    rw [h1.2, h2.2] at this
    have hle : y ≤ x := (one_div_le_one_div hx hy).1 this
    rcases lt_or_eq_of_le hle with h3 | h3
    · exact h3
    · rw [h3] at h; exact absurd h (lt_irrefl _)
  constructor
  · exact key ha hb
  · intro h
    rcases lt_trichotomy (root (1 / a)) (root (1 / b)) with h3 | h3 | h3
    · exact h3
    · exfalso
      have : (1 : R) / a = 1 / b := by rw [← h1.2, ← h2.2, h3]
      have : a = b := by field_simp at this; exact this.symm
      exact absurd this (ne_of_gt h)
    · exact absurd (key hb ha h3) (not_lt.2 h.le)

/-- The memberships minimise the objective for the given centres. -/
theorem estep_optimal [Field R] [LinearOrder R] [IsStrictOrderedRing R] {m : Nat} {root : R → R}
    (hm : 1 ≤ m) (hroot : IsRoot m root) (hk : 0 < k) {d : Fin k → R} (hd : ∀ c, 0 < d c)
    {v : Fin k → R} (hv : ∀ c, 0 ≤ v c) (hv1 : ∑ c, v c = 1) :
    ∑ c, (root (1 / d c) / ∑ c', root (1 / d c')) ^ m * d c ≤ ∑ c, v c ^ m * d c := by
  have : Nonempty (Fin k) := ⟨⟨0, hk⟩⟩
  set s : Fin k → R := fun c => root (1 / d c) with hs
  have hsp : ∀ c, 0 < s c := fun c => (hroot _ (by have := hd c; positivity)).1
  have hpow : ∀ c, s c ^ (m - 1) * d c = 1 := by
    intro c
    have hd' := hd c
    have : s c ^ (m - 1) = 1 / d c := (hroot (1 / d c) (by positivity)).2
    rw [this]; field_simp
  have hS : 0 < ∑ c', s c' := Finset.sum_pos (fun c _ => hsp c) Finset.univ_nonempty
  set T := ∑ c', s c' with hT
  obtain ⟨p, rfl⟩ : ∃ p, m = p + 1 := ⟨m - 1, by omega⟩
  simp only [Nat.add_sub_cancel] at hpow
  have hl : ∑ c, (s c / T) ^ (p + 1) * d c = 1 / T ^ p := by
    have : ∀ c, (s c / T) ^ (p + 1) * d c = s c * (1 / T ^ (p + 1)) := by
      intro c
      rw [div_pow, pow_succ (s c)]
      have := hpow c
      calc s c ^ p * s c / T ^ (p + 1) * d c = (s c ^ p * d c) * (s c / T ^ (p + 1)) := by ring
        _ = s c * (1 / T ^ (p + 1)) := by rw [this]; ring
    rw [Finset.sum_congr rfl fun c _ => this c, ← Finset.sum_mul, ← hT, pow_succ]
    field_simp
  rw [hl]
  have hj := (convexOn_pow (𝕜 := R) (p + 1)).map_sum_le (t := Finset.univ)
    (w := fun c => s c / T) (p := fun c => v c * T / s c)
    (fun c _ => by have := hsp c; positivity)
    (by rw [← Finset.sum_div, ← hT, div_self (ne_of_gt hS)])
    (fun c _ => by have := hsp c; have := hv c; exact Set.mem_Ici.2 (by positivity))
  simp only [smul_eq_mul] at hj
  have e1 : ∑ c, s c / T * (v c * T / s c) = 1 := by
    rw [← hv1]
    apply Finset.sum_congr rfl
    intro c _
    have := hsp c
    field_simp
  have e2 : ∑ c, s c / T * (v c * T / s c) ^ (p + 1) = T ^ p * ∑ c, v c ^ (p + 1) * d c := by
    rw [Finset.mul_sum]
    apply Finset.sum_congr rfl
    intro c _
    have h1 := hsp c
    have h2 : d c = 1 / s c ^ p := by rw [← hpow c]; field_simp
    rw [h2, div_pow, mul_pow, pow_succ (s c), pow_succ T]
    field_simp
  rw [e1, e2, one_pow] at hj
  rw [div_le_iff₀ (by positivity)]
  linarith

/-- A weighted mean minimises the weighted sum of squared distances. -/
theorem mstep_optimal [Field R] [LinearOrder R] [IsStrictOrderedRing R] {N : Nat}
    {data : Nat → Row R n} {w : Nat → R} (hw : ∀ r, r < N → 0 ≤ w r)
    {y : Row R n} (hy : WeightedMean N data w y) (z : Row R n) :
    ∑ r ∈ Finset.range N, w r * sqDist (data r) y ≤ ∑ r ∈ Finset.range N, w r * sqDist (data r) z := by
  have hW : 0 ≤ ∑ r ∈ Finset.range N, w r :=
    Finset.sum_nonneg fun r hr => hw r (Finset.mem_range.1 hr)
  have key : ∑ r ∈ Finset.range N, w r * sqDist (data r) z
      = ∑ r ∈ Finset.range N, w r * sqDist (data r) y
        + ∑ j, (∑ r ∈ Finset.range N, w r) * (y j - z j) ^ 2 := by
    unfold sqDist
    simp only [Finset.mul_sum]
    rw [Finset.sum_comm, Finset.sum_comm (s := Finset.range N), ← Finset.sum_add_distrib]
    apply Finset.sum_congr rfl
    intro j _
    have h := hy j
    have e : ∀ r, w r * (data r j - z j) ^ 2 = w r * (data r j - y j) ^ 2
        + (w r * (y j - z j) ^ 2 + 2 * (y j - z j) * (w r * data r j - y j * w r)) := by
      intro r; ring
    simp only [e, Finset.sum_add_distrib]
    rw [← Finset.mul_sum, Finset.sum_sub_distrib, ← Finset.mul_sum, h, sub_self, mul_zero, add_zero,
      Finset.sum_mul]
  rw [key]
  have : 0 ≤ ∑ j, (∑ r ∈ Finset.range N, w r) * (y j - z j) ^ 2 :=
    Finset.sum_nonneg fun j _ => mul_nonneg hW (sq_nonneg _)
  linarith

/-- The running maximum of `argmax`. -/
theorem argmax_spec [LinearOrder R] (dmin : R) (f : Fin k → R) (c0 : Fin k) (h0 : dmin < f c0) :
    ∃ c : Fin k, argmax dmin f = c.val ∧ (∀ c', f c' ≤ f c) ∧ ∀ c', c' < c → f c' < f c := by
  have gen : ∀ (l : List (Fin k)) (v : R × Nat), l.Pairwise (· < ·) →
      let m := l.foldl (fun v c => if v.1 < f c then (f c, c.val) else v) v
      v.1 ≤ m.1 ∧ (∀ c ∈ l, f c ≤ m.1) ∧
        (m = v ∨ ∃ c ∈ l, m = (f c, c.val) ∧ v.1 < f c ∧ ∀ c' ∈ l, c' < c → f c' < f c) := by
    intro l
    induction l with
    | nil => intro v _; simp
    | cons c l ih =>
      intro v hp
      rw [List.pairwise_cons] at hp
      simp only [List.foldl_cons]
      obtain ⟨h1, h2, h3⟩ := ih (if v.1 < f c then (f c, c.val) else v) hp.2
      by_cases h : v.1 < f c
      · rw [if_pos h] at h1 h2 h3 ⊢
        refine ⟨le_trans h.le h1, ?_, ?_⟩
        · rintro c' hc'
          rcases List.mem_cons.1 hc' with rfl | hc'
          · exact h1
          · exact h2 c' hc'
        · right
          rcases h3 with h3 | ⟨c', hc', e, hlt, hall⟩
          · refine ⟨c, by simp, h3, h, ?_⟩
            intro c' hc' hlt
            rcases List.mem_cons.1 hc' with rfl | hc'
            · exact absurd hlt (lt_irrefl _)
            · exact absurd (hp.1 c' hc') (not_lt.2 hlt.le)
          · refine ⟨c', by simp [hc'], e, lt_trans h hlt, ?_⟩
            intro c'' hc'' hlt'
            rcases List.mem_cons.1 hc'' with rfl | hc''
            · exact hlt
            · exact hall c'' hc'' hlt'
      · rw [if_neg h] at h1 h2 h3 ⊢
        refine ⟨h1, ?_, ?_⟩
        · rintro c' hc'
          rcases List.mem_cons.1 hc' with rfl | hc'
          · exact le_trans (not_lt.1 h) h1
          · exact h2 c' hc'
        · rcases h3 with h3 | ⟨c', hc', e, hlt, hall⟩
          · exact Or.inl h3
          · right
            refine ⟨c', by simp [hc'], e, hlt, ?_⟩
            intro c'' hc'' hlt'
            rcases List.mem_cons.1 hc'' with rfl | hc''
            · exact lt_of_le_of_lt (not_lt.1 h) hlt
            · exact hall c'' hc'' hlt'
  obtain ⟨h1, h2, h3⟩ := gen (List.finRange k) (dmin, 0) (List.pairwise_lt_finRange k)
  rcases h3 with h3 | ⟨c, -, e, hlt, hall⟩
  · have := h2 c0 (List.mem_finRange c0)
    rw [h3] at this
    exact absurd h0 (not_lt.2 this)
  · refine ⟨c, by unfold argmax; rw [e], ?_, fun c' => hall c' (List.mem_finRange c')⟩
    intro c'
    have := h2 c' (List.mem_finRange c')
    rwa [e] at this

theorem argmax_lt [LinearOrder R] (hk : 0 < k) (dmin : R) (f : Fin k → R) : argmax dmin f < k := by
  unfold argmax
  have : ∀ (l : List (Fin k)) (v : R × Nat), v.2 < k →
      (l.foldl (fun v c => if v.1 < f c then (f c, c.val) else v) v).2 < k := by
    intro l
    induction l with
    | nil => intro v h; exact h
    | cons c l ih =>
      intro v h
      simp only [List.foldl_cons]
      apply ih
      split
      · exact c.isLt
      · exact h
  exact this _ _ hk

theorem tally_eq (N : Nat) (assign : Nat → Nat) (c : Nat) :
    tally N assign c = (((Finset.range N).filter fun r => assign r = c).card : Int) := by
  unfold tally
  induction N with
  | zero => simp
  | succ N ih =>
    rw [List.range_succ, List.foldl_append, Finset.range_add_one, Finset.filter_insert]
    simp only [List.foldl_cons, List.foldl_nil]
    by_cases h : assign N = c
    · rw [if_pos h, Finset.card_insert_of_notMem (by simp)]
      subst h
      simp [ih]
    · rw [if_neg h, Function.update_of_ne (Ne.symm h), ih]

end Knor.Fcm
