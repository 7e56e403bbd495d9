import Mathlib.Algebra.Order.Field.Rat
import Mathlib.Algebra.BigOperators.Intervals
import Verif.Lemmas.Dist
import Verif.Lemmas.DistMatrix
import Verif.Model.PairTable
import Verif.Spec.PairTable

/-! # Property C104: the table of all pairwise distances -/

namespace Knor.PairTable

open Knor Knor.Dist Knor.DistMatrix

variable {R D : Type _} {k n : Nat}

theorem mem_iters {rows i j : Nat} : (i, j) ∈ iters rows ↔ i < j ∧ j ≤ rows := by
  unfold iters
  simp only [List.mem_flatMap, List.mem_range, List.mem_map, Prod.mk.injEq]
  constructor
  · rintro ⟨a, ha, d, hd, rfl, rfl⟩; omega
  · rintro ⟨h1, h2⟩; exact ⟨i, by omega, j - i - 1, by omega, rfl, by omega⟩

theorem length_iters (rows : Nat) : (iters rows).length = (rows + 1) * rows / 2 := by
  have h : (iters rows).length = ∑ i ∈ Finset.range rows, (rows - i) := by
    unfold iters
    rw [List.length_flatMap]
    simp only [List.length_map, List.length_range]
    rfl
  have h2 : ∑ i ∈ Finset.range rows, (rows - i) = ∑ i ∈ Finset.range (rows + 1), i := by
    rw [Finset.sum_range_succ', Nat.add_zero]
    rw [← Finset.sum_range_reflect (fun j => rows - j)]
    refine Finset.sum_congr rfl fun j hj => ?_
    have := Finset.mem_range.1 hj
    omega
  rw [h, h2, Finset.sum_range_id]
  rfl

theorem pwGet_eq [Zero D] {big : D} {m : DistMatrix D} (h : WF k m) {i j : Nat} (hi : i < k) (hj : j < k)
    (hij : i ≠ j) : pwGet m i j = m.get big i j := by
  obtain ⟨l, h1, h2⟩ := slot_in h hi hj hij
  unfold pwGet DistMatrix.get
  rw [if_neg hij, translate_eq h hi hj hij]
  simp only [h1]
  by_cases hlt : i < j
  · have e : slot i j = (i, j - i - 1) := by unfold slot; rw [min_eq_left hlt.le, max_eq_right hlt.le]
    rw [e] at h1 h2 ⊢
    simp only [hlt, if_true, h1]
    cases l[j - i - 1]? <;> rfl
  · have hji : j < i := by omega
    have e : slot i j = (j, i - j - 1) := by unfold slot; rw [min_eq_right hji.le, max_eq_left hji.le]
    rw [e] at h1 h2 ⊢
    simp only [hlt, if_false, hji, if_true, h1]
    cases l[i - j - 1]? <;> rfl

/-- What holds of the shared table and the remaining work while the team runs: every iteration is either still to be
done by thread `t` or its cell holds the distance. -/
def Inv (big : D) (data : Fin k → Row R n) (f : Row R n → Row R n → D) (s : Team D) : Prop :=
  WF k s.m ∧ ∀ t, (∀ p ∈ s.todo t, p.1 < p.2 ∧ p.2 < k) ∧
    ∀ i j (hj : j < k) (hij : i < j), (i, j) ∈ s.todo t ∨
      s.m.get big i j = .ok (f (data ⟨i, by omega⟩) (data ⟨j, hj⟩))

theorem step_inv {big : D} {data : Fin k → Row R n} {f : Row R n → Row R n → D} {dist : Row R n → Row R n → Res D}
    (hd : ∀ x y, dist x y = .ok (f x y)) (hk : k ≤ 4294967296) {s : Team D} (h : Inv big data f s) (t : Nat) :
    ∃ s', step dist (List.ofFn data) s t = .ok s' ∧ Inv big data f s' ∧
      s'.todo = Function.update s.todo t (s.todo t).tail := by
  obtain ⟨hw, ha⟩ := h
  unfold step
  cases ht : s.todo t with
  | nil => exact ⟨s, rfl, ⟨hw, ha⟩, (Function.update_eq_self_iff.2 ht.symm).symm⟩
  | cons p l =>
    obtain ⟨i, j⟩ := p
    obtain ⟨h1, h2⟩ := (ha t).1 (i, j) (by simp [ht])
    simp only at h1 h2
    have hi : i < k := by omega
    have d1 : (List.ofFn data)[i]? = some (data ⟨i, hi⟩) := by rw [List.getElem?_ofFn, dif_pos hi]
    have d2 : (List.ofFn data)[j]? = some (data ⟨j, h2⟩) := by rw [List.getElem?_ofFn, dif_pos h2]
    simp only [d1, d2, hd]
    rw [u32_of_lt (by omega), u32_of_lt (by omega)]
    obtain ⟨m', e, w, g⟩ := set_spec (big := big) hw hi h2 (by omega) (f (data ⟨i, hi⟩) (data ⟨j, h2⟩))
    rw [e]
    refine ⟨_, rfl, ⟨w, fun u => ⟨?_, ?_⟩⟩, rfl⟩
    · intro p hp
      dsimp only at hp
      by_cases hu : u = t
      · subst hu
        rw [Function.update_self] at hp
        exact (ha u).1 p (by simp [ht, hp])
      · rw [Function.update_of_ne hu] at hp
        exact (ha u).1 p hp
    · intro a b hb hab
      by_cases hp : a = i ∧ b = j
      · obtain ⟨rfl, rfl⟩ := hp
        right
        rw [g a b hi h2, if_pos ⟨by omega, Or.inl ⟨rfl, rfl⟩⟩]
      · rcases (ha u).2 a b hb hab with h3 | h3
        · left
          dsimp only
          by_cases hu : u = t
          · subst hu
            rw [Function.update_self]
            rw [ht, List.mem_cons] at h3
            rcases h3 with h3 | h3
            · simp only [Prod.mk.injEq] at h3; exact absurd h3 hp
            · exact h3
          · rw [Function.update_of_ne hu]; exact h3
        · right
          rw [g a b (by omega) hb, if_neg (by omega)]
          exact h3

theorem runTeam_inv {big : D} {data : Fin k → Row R n} {f : Row R n → Row R n → D}
    {dist : Row R n → Row R n → Res D} (hd : ∀ x y, dist x y = .ok (f x y)) (hk : k ≤ 4294967296) :
    ∀ (sched : List Nat) (s : Team D), Inv big data f s →
      ∃ s', runTeam dist (List.ofFn data) s sched = .ok s' ∧ Inv big data f s' ∧
        ∀ t, s'.todo t = (s.todo t).drop (sched.count t)
  | [], s, h => ⟨s, rfl, h, fun t => by simp⟩
  | u :: l, s, h => by
    obtain ⟨s1, e1, i1, t1⟩ := step_inv hd hk h u
    obtain ⟨s2, e2, i2, t2⟩ := runTeam_inv hd hk l s1 i1
    refine ⟨s2, by unfold runTeam; rw [e1]; exact e2, i2, fun t => ?_⟩
    rw [t2, t1]
    by_cases hu : t = u
    · subst hu
      rw [Function.update_self, List.count_cons_self, ← List.drop_one, List.drop_drop]
      congr 1; omega
    · rw [Function.update_of_ne hu, List.count_cons_of_ne (fun h => hu h.symm)]

/-- The number in the cell of two rows, in any arithmetic. -/
def cell [Zero R] [One R] [Add R] [Sub R] [Mul R] [Div R] (sqrt abs : R → R) : Metric → Row R n → Row R n → R
  | .eucl, x, y => euclAny sqrt x y
  | .cos, x, y => cosAny sqrt x y
  | .taxi, x, y => taxiAny abs x y
  | .sqeucl, x, y => sqeuclAny x y

/-- **C104 (any arithmetic).** For `k ≥ 2` rows, a table created for them and possibly written to before, one of the
three supported metrics, and a team of any number of threads under any schedule in which one thread gets through its
iterations: no assertion fires, nothing is read or written outside a buffer, and afterwards each cell holds the
distance of its two rows (computed with the lower-numbered row first), whichever way round it is asked for and with
either of the two access functions. -/
theorem C104_pairwise [Zero R] [One R] [Add R] [Sub R] [Mul R] [Div R] (sqrt abs : R → R) (big : R) (metric : Metric)
    (hm : metric ≠ .sqeucl) (hk : 2 ≤ k) (hk2 : k ≤ 4294967296) (data : Fin k → Row R n) (m0 : DistMatrix R)
    (h0 : TableFor big k m0) (sched : List Nat) (t : Nat) (ht : k * (k - 1) / 2 ≤ sched.count t) :
    ∃ s, computePairwise sqrt abs metric (List.ofFn data) m0 sched = .ok s ∧ ∀ a b : Fin k,
      pwGet s.m a b = .ok (if a = b then 0 else cell sqrt abs metric (data (min a b)) (data (max a b))) ∧
      s.m.get big a b = .ok (if a = b then big else cell sqrt abs metric (data (min a b)) (data (max a b))) := by
  have hw := h0.wf hk
  have hd : ∀ x y : Row R n, cellDist sqrt abs metric x y = .ok (cell sqrt abs metric x y) := by
    intro x y
    cases metric <;> first | rfl | exact absurd rfl hm
  have hi : Inv big data (cell sqrt abs metric) { m := m0, todo := fun _ => iters m0.rows } := by
    refine ⟨hw, fun u => ⟨?_, ?_⟩⟩
    · rintro ⟨i, j⟩ hp
      have := mem_iters.1 hp
      rw [hw.rows] at this
      simp only
      omega
    · intro i j hj hij
      left
      rw [mem_iters, hw.rows]; omega
  obtain ⟨s, e, ⟨w, inv⟩, td⟩ := runTeam_inv hd hk2 sched _ hi
  have hnil : s.todo t = [] := by
    rw [td t]
    simp only
    rw [List.drop_eq_nil_iff, length_iters, hw.rows]
    have : k - 1 + 1 = k := by omega
    rw [this]; exact ht
  have key : ∀ (a b : Fin k), a < b →
      s.m.get big a.val b.val = .ok (cell sqrt abs metric (data a) (data b)) := by
    intro a b hab
    rcases (inv t).2 a.val b.val b.isLt hab with h | h
    · rw [hnil] at h; simp at h
    · exact h
  have sym : ∀ a b : Fin k, s.m.get big a.val b.val = s.m.get big b.val a.val := by
    intro a b
    by_cases hab : a = b
    · rw [hab]
    · have hne : a.val ≠ b.val := fun h => hab (Fin.ext h)
      obtain ⟨v, e1, e2⟩ := get_eq (big := big) w a.isLt b.isLt hne
      obtain ⟨v', e3, e4⟩ := get_eq (big := big) w b.isLt a.isLt hne.symm
      rw [(slot_inj hne hne.symm).2 (Or.inr ⟨rfl, rfl⟩), e4] at e2
      rw [e1, e3, Option.some.inj e2]
  refine ⟨s, e, fun a b => ?_⟩
  rcases lt_trichotomy a b with hab | hab | hab
  · have hne : a ≠ b := ne_of_lt hab
    rw [pwGet_eq (big := big) w a.isLt b.isLt (fun h => hne (Fin.ext h)), key a b hab, if_neg hne, if_neg hne,
      min_eq_left hab.le, max_eq_right hab.le]
    exact ⟨rfl, rfl⟩
  · subst hab
    simp [pwGet, get_self]
  · have hne : a ≠ b := ne_of_gt hab
    rw [pwGet_eq (big := big) w a.isLt b.isLt (fun h => hne (Fin.ext h)), sym, key b a hab, if_neg hne, if_neg hne,
      min_eq_right hab.le, max_eq_left hab.le]
    exact ⟨rfl, rfl⟩

theorem cosSumsAny_real (x y : Row ℝ n) : cosSumsAny x y = (∑ j, x j * y j, ∑ j, x j ^ 2, ∑ j, y j ^ 2) := by
  have h : cosSumsAny x y = cosSums x y := rfl
  rw [h]
  exact cosSums_eq x y

/-- **C104 (real numbers).** In exact arithmetic the table is the symmetric matrix of textbook distances with a zero
diagonal (for the cosine distance: if no row is zero, where it is not defined). -/
theorem C104_distance_matrix (big : ℝ) (metric : Metric) (d : Row ℝ n → Row ℝ n → ℝ)
    (hm : ∀ x y, Spec.tableDist metric x y = some (d x y)) (hk : 2 ≤ k) (hk2 : k ≤ 4294967296) (data : Fin k → Row ℝ n)
    (hz : metric = .cos → ∀ i, data i ≠ 0) (m0 : DistMatrix ℝ) (h0 : TableFor big k m0) (sched : List Nat) (t : Nat)
    (ht : k * (k - 1) / 2 ≤ sched.count t) :
    ∃ s, computePairwise Real.sqrt abs metric (List.ofFn data) m0 sched = .ok s ∧ ∀ a b : Fin k,
      pwGet s.m a b = .ok (d (data a) (data b)) := by
  have hne : metric ≠ .sqeucl := by
    rintro rfl
    have := hm 0 0
    simp [Spec.tableDist] at this
  have hc : ∀ x y : Row ℝ n, cell Real.sqrt abs metric x y = d x y := by
    intro x y
    have h := hm x y
    cases metric with
    | sqeucl => exact absurd rfl hne
    | eucl =>
      simp only [Spec.tableDist, Option.some.injEq] at h
      exact (eucl_eq x y).trans h
    | taxi =>
      simp only [Spec.tableDist, Option.some.injEq] at h
      exact (taxi_eq x y).trans h
    | cos =>
      simp only [Spec.tableDist, Option.some.injEq] at h
      rw [← h]
      unfold cell cosAny
      simp only [cosSumsAny_real]
  have hs : ∀ x y : Row ℝ n, d x y = d y x := by
    intro x y
    have h1 := hm x y
    have h2 := hm y x
    cases metric with
    | sqeucl => exact absurd rfl hne
    | eucl =>
      simp only [Spec.tableDist, Option.some.injEq] at h1 h2
      rw [← h1, ← h2]
      congr 1
      exact Finset.sum_congr rfl fun j _ => by ring
    | taxi =>
      simp only [Spec.tableDist, Option.some.injEq] at h1 h2
      rw [← h1, ← h2]
      exact Finset.sum_congr rfl fun j _ => abs_sub_comm _ _
    | cos =>
      simp only [Spec.tableDist, Option.some.injEq] at h1 h2
      rw [← h1, ← h2, mul_comm (Real.sqrt _)]
      congr 2
      exact Finset.sum_congr rfl fun j _ => mul_comm _ _
  have h00 : ∀ i, d (data i) (data i) = 0 := by
    intro i
    have h := hm (data i) (data i)
    cases metric with
    | sqeucl => exact absurd rfl hne
    | eucl =>
      simp only [Spec.tableDist, Option.some.injEq] at h
      rw [← h]; simp
    | taxi =>
      simp only [Spec.tableDist, Option.some.injEq] at h
      rw [← h]; simp
    | cos =>
      simp only [Spec.tableDist, Option.some.injEq] at h
      have hp : 0 < ∑ j, (data i) j ^ 2 := by
        refine lt_of_le_of_ne (Finset.sum_nonneg fun _ _ => sq_nonneg _) fun h => hz rfl i ?_
        funext j
        have := (Finset.sum_eq_zero_iff_of_nonneg (fun j _ => sq_nonneg ((data i) j))).1 h.symm j (Finset.mem_univ j)
        simpa using this
      rw [← h, Real.mul_self_sqrt hp.le]
      have : ∑ j, (data i) j * (data i) j = ∑ j, (data i) j ^ 2 := Finset.sum_congr rfl fun j _ => by ring
      rw [this, div_self hp.ne', sub_self]
  obtain ⟨s, e, g⟩ := C104_pairwise Real.sqrt abs big metric hne hk hk2 data m0 h0 sched t ht
  refine ⟨s, e, fun a b => ?_⟩
  rw [(g a b).1]
  congr 1
  rcases lt_trichotomy a b with hab | hab | hab
  · rw [if_neg (ne_of_lt hab), hc, min_eq_left hab.le, max_eq_right hab.le]
  · subst hab; rw [if_pos rfl, h00]
  · rw [if_neg (ne_of_gt hab), hc, min_eq_right hab.le, max_eq_left hab.le, hs]

theorem minLoop_spec [LinearOrder D] {big : D} {m : DistMatrix D} (h : WF k m) {row : Nat} (hr : row < k)
    {g : Nat → D} (hg : ∀ j, j < k → j ≠ row → m.get big row j = .ok (g j)) :
    ∀ (l : List Nat) (best : D), (∀ j ∈ l, j < k) → ∃ v, minLoop big m row l best = .ok v ∧ v ≤ best ∧
      (∀ j ∈ l, j ≠ row → v ≤ g j) ∧ (v = best ∨ ∃ j ∈ l, j ≠ row ∧ v = g j)
  | [], best, _ => ⟨best, rfl, le_rfl, by simp, Or.inl rfl⟩
  | j :: l, best, hl => by
    unfold minLoop
    by_cases hj : j = row
    · obtain ⟨v, e, h1, h2, h3⟩ := minLoop_spec h hr hg l best fun x hx => hl x (by simp [hx])
      rw [if_neg (by simp [hj])]
      refine ⟨v, e, h1, ?_, ?_⟩
      · intro x hx hxr
        rcases List.mem_cons.1 hx with rfl | hx
        · exact absurd hj hxr
        · exact h2 x hx hxr
      · rcases h3 with h3 | ⟨x, hx, q⟩
        · exact Or.inl h3
        · exact Or.inr ⟨x, by simp [hx], q⟩
    · rw [if_pos hj, hg j (hl j (by simp)) hj]
      simp only
      obtain ⟨v, e, h1, h2, h3⟩ := minLoop_spec h hr hg l (if g j < best then g j else best)
        fun x hx => hl x (by simp [hx])
      refine ⟨v, e, ?_, ?_, ?_⟩
      · split_ifs at h1 with hlt
        · exact h1.trans hlt.le
        · exact h1
      · intro x hx hxr
        rcases List.mem_cons.1 hx with rfl | hx
        · split_ifs at h1 with hlt
          · exact h1
          · exact h1.trans (not_lt.1 hlt)
        · exact h2 x hx hxr
      · rcases h3 with h3 | ⟨x, hx, q⟩
        · split_ifs at h3 with hlt
          · exact Or.inr ⟨j, by simp, hj, h3⟩
          · exact Or.inl h3
        · exact Or.inr ⟨x, by simp [hx], q⟩

/-- **C104 (nearest).** `get_min_dist` of a row of any table is its least entry, provided one is below `DBL_MAX`;
otherwise the assertion fails. -/
theorem C104_min_dist [LinearOrder D] (big : D) (hk : 2 ≤ k) (m : DistMatrix D) (h : TableFor big k m) (row : Nat)
    (hr : row < k) (g : Nat → D) (hg : ∀ j, j < k → j ≠ row → m.get big row j = .ok (g j)) :
    (∀ v, getMinDist big m row = .ok v ↔ v < big ∧ (∃ j, j < k ∧ j ≠ row ∧ v = g j) ∧ ∀ j, j < k → j ≠ row → v ≤ g j) ∧
    (getMinDist big m row = .error .assertFail ↔ ∀ j, j < k → j ≠ row → big ≤ g j) := by
  have hw := h.wf hk
  have hl : ∀ j ∈ List.range (m.rows + 1), j < k := by
    intro j hj; rw [List.mem_range, hw.rows] at hj; omega
  have hmem : ∀ j, j < k → j ∈ List.range (m.rows + 1) := by
    intro j hj; rw [List.mem_range, hw.rows]; omega
  obtain ⟨v, e, h1, h2, h3⟩ := minLoop_spec hw hr hg (List.range (m.rows + 1)) big hl
  unfold getMinDist
  rw [e]
  simp only
  by_cases hv : v < big
  · rw [if_pos hv]
    have hex : ∃ j, j < k ∧ j ≠ row ∧ v = g j := by
      rcases h3 with h3 | ⟨j, hj, hjr, h3⟩
      · exact absurd h3 (ne_of_lt hv)
      · exact ⟨j, hl j hj, hjr, h3⟩
    refine ⟨fun w => ⟨?_, ?_⟩, ?_, ?_⟩
    · intro hw'; cases hw'
      exact ⟨hv, hex, fun j hj hjr => h2 j (hmem j hj) hjr⟩
    · rintro ⟨_, ⟨j, hj, hjr, rfl⟩, hle⟩
      obtain ⟨i, hi, hir, rfl⟩ := hex
      rw [le_antisymm (h2 j (hmem j hj) hjr) (hle i hi hir)]
    · intro hc; cases hc
    · intro hall
      obtain ⟨j, hj, hjr, rfl⟩ := hex
      exact absurd (hall j hj hjr) (not_le.2 hv)
  · rw [if_neg hv]
    have hb : v = big := le_antisymm h1 (not_lt.1 hv)
    refine ⟨fun w => ⟨?_, ?_⟩, ?_, ?_⟩
    · intro hc; cases hc
    · rintro ⟨hlt, ⟨j, hj, hjr, rfl⟩, _⟩
      exact absurd (h2 j (hmem j hj) hjr) (not_le.2 (hb ▸ hlt))
    · intro _ j hj hjr; rw [← hb]; exact h2 j (hmem j hj) hjr
    · intro _; rfl

/-- **C104, violated for the fourth metric.** `SQEUCL` is a member of `dist_t` and every other part of the library
accepts it, but for at least two rows the first thread to start throws (inside the parallel region, where nothing can
catch it). -/
theorem C104_squared_violated [Zero R] [One R] [Add R] [Sub R] [Mul R] [Div R] (sqrt abs : R → R) (big : R)
    (hk : 2 ≤ k) (data : Fin k → Row R n) (m0 : DistMatrix R) (h0 : TableFor big k m0) (t : Nat) (sched : List Nat) :
    computePairwise sqrt abs .sqeucl (List.ofFn data) m0 (t :: sched) = .error .throws := by
  have hw := h0.wf hk
  unfold computePairwise runTeam step
  dsimp only
  cases hi : iters m0.rows with
  | nil =>
    have : (0, 1) ∈ iters m0.rows := mem_iters.2 (by rw [hw.rows]; omega)
    rw [hi] at this; simp at this
  | cons p l =>
    obtain ⟨i, j⟩ := p
    have hm := mem_iters.1 (show (i, j) ∈ iters m0.rows by rw [hi]; simp)
    rw [hw.rows] at hm
    have d1 : (List.ofFn data)[i]? = some (data ⟨i, by omega⟩) := by rw [List.getElem?_ofFn, dif_pos (by omega)]
    have d2 : (List.ofFn data)[j]? = some (data ⟨j, by omega⟩) := by rw [List.getElem?_ofFn, dif_pos (by omega)]
    simp only [d1, d2, cellDist]

/-- Four rows of two numbers. -/
def demoData : Fin 4 → Row ℚ 2 := ![![0, 0], ![3, 4], ![6, 8], ![1, -1]]

/-- The table of the four rows after two threads have worked in a fixed alternation, and the first of them alone. -/
def demoTable (metric : Metric) (sched : List Nat) : Option (DistMatrix ℚ) :=
  match create (1000 : ℚ) 4 with
  | .error _ => none
  | .ok m0 =>
    match computePairwise id abs metric (List.ofFn demoData) m0 sched with
    | .error _ => none
    | .ok s => some s.m

/-- The hypotheses of the theorems are met: two threads, the second one overtakes the first.  Taxicab distances, zero
on the diagonal, and the nearest other row. -/
example :
    (demoTable .taxi [1, 0, 0, 1, 1, 1, 0, 1, 1]).map (fun m => (List.range 4).map fun i =>
      ((List.range 4).map fun j => pwGet m i j, getMinDist 1000 m i)) =
    some [([.ok 0, .ok 7, .ok 14, .ok 2], .ok 2), ([.ok 7, .ok 0, .ok 7, .ok 7], .ok 7),
      ([.ok 14, .ok 7, .ok 0, .ok 14], .ok 7), ([.ok 2, .ok 7, .ok 14, .ok 0], .ok 2)] ∧
    4 * (4 - 1) / 2 ≤ [1, 0, 0, 1, 1, 1, 0, 1, 1].count 1 := by decide +kernel

/-- A table fresh from the constructor meets `TableFor`, and in it no entry is below the maximum. -/
example : ∃ m0, create (1000 : ℚ) 4 = .ok m0 ∧ TableFor 1000 4 m0 ∧ getMinDist 1000 m0 2 = .error .assertFail := by
  refine ⟨_, rfl, ⟨_, [], rfl, by simp, rfl⟩, ?_⟩
  decide +kernel

/-- `SQEUCL` ends the run. -/
example : demoTable .sqeucl [0] = none ∧ demoTable .sqeucl [] ≠ none := by decide +kernel

/-- The three metrics of the specification. -/
example : (∃ d : Row ℝ 2 → Row ℝ 2 → ℝ, ∀ x y, Spec.tableDist .eucl x y = some (d x y)) ∧
    (∃ d : Row ℝ 2 → Row ℝ 2 → ℝ, ∀ x y, Spec.tableDist .cos x y = some (d x y)) ∧
    (∃ d : Row ℝ 2 → Row ℝ 2 → ℝ, ∀ x y, Spec.tableDist .taxi x y = some (d x y)) :=
  ⟨⟨_, fun _ _ => rfl⟩, ⟨_, fun _ _ => rfl⟩, ⟨_, fun _ _ => rfl⟩⟩

end Knor.PairTable
