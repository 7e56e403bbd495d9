import Verif.Lemmas.PruneNear

/-!
# The sums of a pruned pass in rounded arithmetic
-/

namespace Knor.Spec

variable {R F : Type _} [Zero R] [Add R] [Sub R] [Mul R] [Div R] [IntCast R] [LT R] [Field F] [LinearOrder F]
  [IsStrictOrderedRing F] {fin : R → Prop} {val : R → F} {u η M : F} {K : Nat}

theorem Near.sub (hA : RoundsAll fin val u η M K) {m : Nat} {s s' : R} {x x' a a' : F}
    (h : Near fin val u m s x a) (h' : Near fin val u m s' x' a')
    (hM : (1 + u) ^ m * (a + a') ≤ M) : Near fin val u (m + 1) (s - s') (x - x') (a + a') := by
  have hu := hA.u_nonneg
  have hs : |val s - val s'| ≤ (1 + u) ^ m * (a + a') := by
    refine (abs_sub _ _).trans ?_
    rw [mul_add]; exact add_le_add h.abs_le h'.abs_le
  obtain ⟨f, e⟩ := hA.sub s s' h.fin h'.fin (hs.trans hM)
  refine ⟨f, (abs_sub _ _).trans (add_le_add h.le h'.le), ?_⟩
  have e1 := h.err
  have e2 := h'.err
  calc |val (s - s') - (x - x')|
      = |(val (s - s') - (val s - val s')) + ((val s - x) - (val s' - x'))| := by congr 1; ring
    _ ≤ |val (s - s') - (val s - val s')| + (|val s - x| + |val s' - x'|) :=
        (abs_add_le _ _).trans (add_le_add le_rfl (abs_sub _ _))
    _ ≤ u * ((1 + u) ^ m * (a + a')) + (((1 + u) ^ m - 1) * a + ((1 + u) ^ m - 1) * a') :=
        add_le_add (e.trans (mul_le_mul_of_nonneg_left hs hu)) (add_le_add e1 e2)
    _ = ((1 + u) ^ (m + 1) - 1) * (a + a') := by rw [pow_succ]; ring

omit [Zero R] [Add R] [Sub R] [Mul R] [Div R] [IntCast R] [LT R] in
theorem Near.weaken (hu : 0 ≤ u) {m : Nat} {s : R} {x a a' : F} (h : Near fin val u m s x a) (ha : a ≤ a') :
    Near fin val u m s x a' := by
  refine ⟨h.fin, h.le.trans ha, h.err.trans (mul_le_mul_of_nonneg_left ha ?_)⟩
  have := one_le_pow_u hu m
  linarith

end Knor.Spec

namespace Knor.Prune

open Knor Knor.Par Knor.Partition Knor.Spec

variable {R D F : Type _} {k n : Nat}

/-- What one row adds to the sum of cluster `c`. -/
def rowDelta [Zero F] [Sub F] (pi : Bool) (s s' : Option (Fin k)) (c : Fin k) (x : F) : F :=
  if pi then (if s' = some c then x else 0)
  else (if s' = some c then x else 0) - (if s = some c then x else 0)

/-- What one row adds to the number of changes. -/
def rowChange (pi : Bool) (s s' : Option (Fin k)) : Nat :=
  if pi then 1 else if s' ≠ s then 1 else 0

/-- Counting parts of the accumulators, in any arithmetic. -/
theorem accStep_count [Add R] [Sub R] (data : Nat → Row R n) (pi : Bool) (r : Nat) (s s' : Slot D k)
    (hy : ∃ y, s'.assign = some y) (hx : pi = false → ∃ x, s.assign = some x) (a : Kmeans.Acc R k n) :
    (accStep data pi r s s' a).changed = a.changed + rowChange pi s.assign s'.assign ∧
    (accStep data pi r s s' a).loc.complete = a.loc.complete ∧
    ∀ c, (accStep data pi r s s' a).loc.num c = a.loc.num c + rowDelta pi s.assign s'.assign c 1 := by
  obtain ⟨y, hy⟩ := hy
  unfold rowDelta rowChange
  cases pi with
  | true =>
    simp only [if_true, accStep, hy, Clusters.addMember, true_and]
    intro c
    by_cases hcy : c = y
    · subst hcy; simp
    · simp [Function.update_of_ne hcy, Ne.symm hcy]
  | false =>
    obtain ⟨x, hx⟩ := hx rfl
    simp only [Bool.false_eq_true, if_false, accStep, hy, hx]
    by_cases hxy : x = y
    · subst hxy; simp
    · simp only [ne_eq, hxy, not_false_eq_true, if_true, Clusters.swapMembership, Clusters.addMember,
        Clusters.removeMember, true_and, Option.some.injEq, Ne.symm hxy]
      intro c
      by_cases hcy : c = y
      · subst hcy; simp [Function.update_of_ne (Ne.symm hxy), hxy]
      · by_cases hcx : c = x
        · subst hcx; simp [Function.update_of_ne hcy, Ne.symm hxy]; ring
        · simp [Function.update_of_ne hcy, Function.update_of_ne hcx, Ne.symm hcy, Ne.symm hcx]

section Near

variable [Zero R] [Add R] [Sub R] [Mul R] [Div R] [IntCast R] [LT R] [Field F] [LinearOrder F]
  [IsStrictOrderedRing F] {fin : R → Prop} {val : R → F} {u η M : F} {K : Nat}

/-- One row of a pass. -/
theorem accStep_near (hA : RoundsAll fin val u η M K) (data : Nat → Row R n) (pi : Bool) (r : Nat) (s s' : Slot D k)
    (hy : ∃ y, s'.assign = some y) (hx : pi = false → ∃ x, s.assign = some x) (a : Kmeans.Acc R k n)
    (c : Fin k) (j : Fin n) (hf : fin (data r j)) {m : Nat} {y b : F} (h : Near fin val u m (a.loc.means c j) y b)
    (hM : (1 + u) ^ m * (b + |val (data r j)|) ≤ M) :
    Near fin val u (m + 1) ((accStep data pi r s s' a).loc.means c j)
      (y + rowDelta pi s.assign s'.assign c (val (data r j))) (b + |val (data r j)|) := by
  have hu := hA.u_nonneg
  have hx0 : Near fin val u m (data r j) (val (data r j)) |val (data r j)| :=
    ⟨hf, le_rfl, by
      have := one_le_pow_u hu m
      rw [sub_self, abs_zero]
      exact mul_nonneg (by linarith) (abs_nonneg _)⟩
  have keep : Near fin val u (m + 1) (a.loc.means c j) (y + 0) (b + |val (data r j)|) := by
    rw [add_zero]
    exact (h.mono hu (Nat.le_succ m)).weaken hu (le_add_of_nonneg_right (abs_nonneg _))
  have plus := h.add hA.toRounds hx0 hM
  have minus := h.sub hA hx0 hM
  obtain ⟨z, hy⟩ := hy
  unfold rowDelta
  cases pi with
  | true =>
    simp only [if_true, accStep, hy, Clusters.addMember]
    by_cases hcy : c = z
    · subst hcy; simpa using plus
    · simpa [Function.update_of_ne hcy, Ne.symm hcy] using keep
  | false =>
    obtain ⟨x, hx⟩ := hx rfl
    simp only [Bool.false_eq_true, if_false, accStep, hy, hx]
    by_cases hxy : x = z
    · subst hxy; simpa using keep
    · simp only [ne_eq, hxy, not_false_eq_true, if_true, Clusters.swapMembership, Clusters.addMember,
        Clusters.removeMember, Option.some.injEq]
      by_cases hcy : c = z
      · subst hcy; simpa [Function.update_of_ne (Ne.symm hxy), hxy] using plus
      · by_cases hcx : c = x
        · subst hcx
          rw [sub_eq_add_neg] at minus
          simpa [Function.update_of_ne hcy, Ne.symm hxy] using minus
        · simpa [Function.update_of_ne hcy, Function.update_of_ne hcx, Ne.symm hcy, Ne.symm hcx] using keep

/-- The rows of one worker. -/
theorem accFold_near (hA : RoundsAll fin val u η M K) (data : Nat → Row R n) (pi : Bool) (s s' : Nat → Slot D k)
    (c : Fin k) (j : Fin n) (l : List Nat) :
    ∀ (a : Kmeans.Acc R k n) (m : Nat) (y b : F), Near fin val u m (a.loc.means c j) y b →
    (∀ r ∈ l, ∃ y, (s' r).assign = some y) → (pi = false → ∀ r ∈ l, ∃ x, (s r).assign = some x) →
    (∀ r ∈ l, fin (data r j)) →
    (1 + u) ^ (m + l.length) * (b + (l.map fun r => |val (data r j)|).sum) ≤ M →
    Near fin val u (m + l.length) ((l.foldl (fun a r => accStep data pi r (s r) (s' r) a) a).loc.means c j)
      (y + (l.map fun r => rowDelta pi (s r).assign (s' r).assign c (val (data r j))).sum)
      (b + (l.map fun r => |val (data r j)|).sum) := by
  have hu := hA.u_nonneg
  induction l with
  | nil => intro a m y b h _ _ _ _; simpa using h
  | cons r l ih =>
    intro a m y b h h1 h2 h3 hM
    have hb : 0 ≤ b := (abs_nonneg _).trans h.le
    have hl0 : 0 ≤ (l.map fun r => |val (data r j)|).sum := by
      apply List.sum_nonneg
      intro z hz
      obtain ⟨i, _, rfl⟩ := List.mem_map.1 hz
      exact abs_nonneg _
    simp only [List.map_cons, List.foldl_cons, List.sum_cons, List.length_cons] at hM ⊢
    have := abs_nonneg (val (data r j))
    have hs := accStep_near hA data pi r (s r) (s' r) (h1 r (by simp)) (fun hp => h2 hp r (by simp)) a c j
      (h3 r (by simp)) h (by
        refine le_trans ?_ hM
        exact mul_le_mul (pow_le_pow_right₀ (by linarith) (by omega)) (by linarith) (by linarith)
          (pow_nonneg (by linarith) _))
    have := ih _ (m + 1) _ _ hs (fun r hr => h1 r (by simp [hr])) (fun hp r hr => h2 hp r (by simp [hr]))
      (fun r hr => h3 r (by simp [hr])) (by
        rw [show m + 1 + l.length = m + (l.length + 1) by omega, add_assoc]
        exact hM)
    rw [show m + 1 + l.length = m + (l.length + 1) by omega, add_assoc, add_assoc] at this
    exact this

omit [Zero R] [Mul R] [Div R] [IntCast R] [LT R] in
theorem accFold_count (data : Nat → Row R n) (pi : Bool) (s s' : Nat → Slot D k) (l : List Nat) :
    ∀ (a : Kmeans.Acc R k n),
    (∀ r ∈ l, ∃ y, (s' r).assign = some y) → (pi = false → ∀ r ∈ l, ∃ x, (s r).assign = some x) →
    (l.foldl (fun a r => accStep data pi r (s r) (s' r) a) a).changed =
      a.changed + (l.map fun r => rowChange pi (s r).assign (s' r).assign).sum ∧
    ∀ c, (l.foldl (fun a r => accStep data pi r (s r) (s' r) a) a).loc.num c =
      a.loc.num c + (l.map fun r => rowDelta pi (s r).assign (s' r).assign c (1 : Int)).sum := by
  induction l with
  | nil => intro a _ _; simp
  | cons r l ih =>
    intro a h1 h2
    obtain ⟨e1, _, e3⟩ := accStep_count data pi r (s r) (s' r) (h1 r (by simp)) (fun hp => h2 hp r (by simp)) a
    obtain ⟨i1, i2⟩ := ih (accStep data pi r (s r) (s' r) a) (fun r hr => h1 r (by simp [hr]))
      (fun hp r hr => h2 hp r (by simp [hr]))
    simp only [List.foldl_cons, List.map_cons, List.sum_cons]
    refine ⟨by rw [i1, e1]; omega, fun c => by rw [i2, e3]; omega⟩

/-- The sums, counts and changes of all workers of a rank. -/
theorem mergeAcc_near (hA : RoundsAll fin val u η M K) {N T L : Nat} {todo : Nat → List Nat}
    (hsp : Split N T todo) (hL : ∀ t, (todo t).length ≤ L) (data : Nat → Row R n)
    (hfin : ∀ r, r < N → ∀ j, fin (data r j)) (pi : Bool) (s s' : Nat → Slot D k)
    (h1 : ∀ r, r < N → ∃ y, (s' r).assign = some y) (h2 : pi = false → ∀ r, r < N → ∃ x, (s r).assign = some x)
    (acc : Nat → Kmeans.Acc R k n)
    (hacc : ∀ t, acc t = (todo t).foldl (fun a r => accStep data pi r (s r) (s' r) a) Kmeans.Acc.init)
    (hM : ∀ j, (1 + u) ^ (L + T) * (∑ r ∈ Finset.range N, |val (data r j)|) ≤ M) :
    let m := (List.range T).foldl (fun x t => Clusters.peq x (acc t).loc) (Clusters.empty : Clusters R k n)
    (∀ c, m.complete c = false) ∧
    (∀ c, m.num c = ∑ r ∈ Finset.range N, rowDelta pi (s r).assign (s' r).assign c (1 : Int)) ∧
    (∀ c j, Near fin val u (L + T) (m.means c j)
      (∑ r ∈ Finset.range N, rowDelta pi (s r).assign (s' r).assign c (val (data r j)))
      (∑ r ∈ Finset.range N, |val (data r j)|)) ∧
    (List.range T).foldl (fun m t => m + (acc t).changed) 0 =
      ∑ r ∈ Finset.range N, rowChange pi (s r).assign (s' r).assign := by
  intro m
  have hu := hA.u_nonneg
  have hmem : ∀ t r, r ∈ todo t → r < N := fun t r hr => (hsp.mem_iff r).1 ⟨t, hr⟩
  have hcnt := fun t => accFold_count data pi s s' (todo t) (Kmeans.Acc.init)
    (fun r hr => h1 r (hmem t r hr)) (fun hp r hr => h2 hp r (hmem t r hr))
  obtain ⟨m1, m2, m3⟩ := Clusters.foldl_peq_any ((List.range T).map fun t => (acc t).loc)
    (Clusters.empty : Clusters R k n)
  have hm : m = List.foldl Clusters.peq Clusters.empty ((List.range T).map fun t => (acc t).loc) :=
    Kmeans.foldl_map' Clusters.peq (fun t => (acc t).loc) _ _
  rw [hm]
  refine ⟨fun c => by rw [m1]; rfl, ?_, ?_, ?_⟩
  · intro c
    rw [m3, List.map_map, ← hsp.sum]
    rw [show (Clusters.empty : Clusters R k n).num c = 0 from rfl, zero_add]
    congr 1
    apply List.map_congr_left
    intro t _
    simp only [Function.comp_apply]
    rw [hacc t, (hcnt t).2 c]
    exact zero_add _
  · intro c j
    rw [m2, List.map_map, ← hsp.sum, ← hsp.sum]
    rw [show (Clusters.empty : Clusters R k n).means c j = 0 from rfl]
    set A : Nat → F := fun t => ((todo t).map fun r => |val (data r j)|).sum with hAdef
    have hA0 : ∀ t, 0 ≤ A t := by
      intro t
      apply List.sum_nonneg
      intro z hz
      obtain ⟨r, _, rfl⟩ := List.mem_map.1 hz
      exact abs_nonneg _
    have hAsum : ((List.range T).map A).sum = ∑ r ∈ Finset.range N, |val (data r j)| := hsp.sum _
    have hAle : ∀ t ∈ List.range T, A t ≤ ∑ r ∈ Finset.range N, |val (data r j)| := by
      intro t ht
      rw [← hAsum]
      apply List.single_le_sum
      · intro z hz
        obtain ⟨t', _, rfl⟩ := List.mem_map.1 hz
        exact hA0 t'
      · exact List.mem_map.2 ⟨t, ht, rfl⟩
    have hloc : ∀ t ∈ List.range T, Near fin val u L (((fun x : Clusters R k n => x.means c j) ∘
        fun t => (acc t).loc) t)
        ((todo t).map fun r => rowDelta pi (s r).assign (s' r).assign c (val (data r j))).sum (A t) := by
      intro t ht
      simp only [Function.comp_apply]
      rw [hacc t]
      have := accFold_near hA data pi s s' c j (todo t) Kmeans.Acc.init 0 0 0 (near_zero hA.toRounds)
        (fun r hr => h1 r (hmem t r hr)) (fun hp r hr => h2 hp r (hmem t r hr))
        (fun r hr => hfin r (hmem t r hr) j) (by
          rw [zero_add, zero_add]
          refine le_trans ?_ (hM j)
          exact mul_le_mul (pow_le_pow_right₀ (by linarith) ((hL t).trans (Nat.le_add_right _ _))) (hAle t ht) (hA0 t)
            (pow_nonneg (by linarith) _))
      rw [zero_add, zero_add, zero_add] at this
      exact this.mono hu (hL t)
    have := near_seq hA.toRounds _ _ A (m0 := L) (List.range T) hloc
      (by rw [hAsum, List.length_range]; exact hM j)
    rw [List.length_range] at this
    exact this
  · rw [Kmeans.foldl_add_eq, ← hsp.sum, Nat.zero_add]
    congr 1
    apply List.map_congr_left
    intro t _
    rw [hacc t, (hcnt t).1]
    exact zero_add _

end Near

end Knor.Prune
