import Mathlib.Tactic.Linarith
import Mathlib.Tactic.Ring
import Mathlib.Tactic.Positivity
import Mathlib.Algebra.Order.BigOperators.Group.Finset
import Verif.Lemmas.AnyArith

/-!
# Error of sums and means in rounded arithmetic
-/

namespace Knor.Spec

open Finset

variable {R F : Type _} [Zero R] [Add R] [Div R] [IntCast R] [Field F] [LinearOrder F]
  [IsStrictOrderedRing F] {fin : R → Prop} {val : R → F} {u η M : F} {K : Nat}

/-- `s` is a finite number within relative error `(1+u)^m - 1` (relative to `a ≥ |x|`) of `x`. -/
structure Near (fin : R → Prop) (val : R → F) (u : F) (m : Nat) (s : R) (x a : F) : Prop where
  fin : fin s
  le : |x| ≤ a
  err : |val s - x| ≤ ((1 + u) ^ m - 1) * a

omit [Zero R] [Add R] [Div R] [IntCast R] in
theorem Near.abs_le {m : Nat} {s : R} {x a : F} (h : Near fin val u m s x a) :
    |val s| ≤ (1 + u) ^ m * a := by
  have h1 := h.err
  have h2 := h.le
  calc |val s| = |(val s - x) + x| := by congr 1; ring
    _ ≤ |val s - x| + |x| := abs_add_le _ _
    _ ≤ ((1 + u) ^ m - 1) * a + a := add_le_add h1 h2
    _ = _ := by ring

theorem one_le_pow_u (hu : 0 ≤ u) (m : Nat) : 1 ≤ (1 + u) ^ m :=
  one_le_pow₀ (by linarith)

omit [Zero R] [Add R] [Div R] [IntCast R] in
theorem Near.mono (hu : 0 ≤ u) {m m' : Nat} (hm : m ≤ m') {s : R} {x a : F} (h : Near fin val u m s x a) :
    Near fin val u m' s x a := by
  have ha : 0 ≤ a := (abs_nonneg x).trans h.le
  refine ⟨h.fin, h.le, h.err.trans (mul_le_mul_of_nonneg_right ?_ ha)⟩
  have := pow_le_pow_right₀ (show (1 : F) ≤ 1 + u by linarith) hm
  linarith

theorem Near.add (hR : Rounds fin val u η M K) {m : Nat} {s s' : R} {x x' a a' : F}
    (h : Near fin val u m s x a) (h' : Near fin val u m s' x' a')
    (hM : (1 + u) ^ m * (a + a') ≤ M) : Near fin val u (m + 1) (s + s') (x + x') (a + a') := by
  have hs : |val s + val s'| ≤ (1 + u) ^ m * (a + a') := by
    refine (abs_add_le _ _).trans ?_
    rw [mul_add]; exact add_le_add h.abs_le h'.abs_le
  obtain ⟨f, e⟩ := hR.add s s' h.fin h'.fin (hs.trans hM)
  refine ⟨f, (abs_add_le _ _).trans (add_le_add h.le h'.le), ?_⟩
  have e1 := h.err
  have e2 := h'.err
  calc |val (s + s') - (x + x')|
      = |(val (s + s') - (val s + val s')) + ((val s - x) + (val s' - x'))| := by congr 1; ring
    _ ≤ |val (s + s') - (val s + val s')| + (|val s - x| + |val s' - x'|) :=
        (abs_add_le _ _).trans (add_le_add le_rfl (abs_add_le _ _))
    _ ≤ u * ((1 + u) ^ m * (a + a')) + (((1 + u) ^ m - 1) * a + ((1 + u) ^ m - 1) * a') :=
        add_le_add (e.trans (mul_le_mul_of_nonneg_left hs hR.u_nonneg)) (add_le_add e1 e2)
    _ = ((1 + u) ^ (m + 1) - 1) * (a + a') := by rw [pow_succ]; ring

/-- Adding up a list from left to right, each element being near some number. -/
theorem near_foldl (hR : Rounds fin val u η M K) {ι : Type _} (f : ι → R) (x a : ι → F) {m0 : Nat} :
    ∀ (l : List ι) (m : Nat) (s : R) (y b : F), m0 ≤ m → Near fin val u m s y b →
    (∀ i ∈ l, Near fin val u m0 (f i) (x i) (a i)) →
    (1 + u) ^ (m + l.length) * (b + (l.map a).sum) ≤ M →
    Near fin val u (m + l.length) ((l.map f).foldl (· + ·) s) (y + (l.map x).sum) (b + (l.map a).sum) := by
  intro l
  induction l with
  | nil => intro m s y b _ h _ _; simpa using h
  | cons i l ih =>
    intro m s y b hm h hl hM
    have hi := hl i (by simp)
    have hu := hR.u_nonneg
    have hsum : 0 ≤ (l.map a).sum := by
      apply List.sum_nonneg
      intro z hz
      obtain ⟨j, hj, rfl⟩ := List.mem_map.1 hz
      exact (abs_nonneg _).trans (hl j (by simp [hj])).le
    have hb : 0 ≤ b := (abs_nonneg _).trans h.le
    have hai : 0 ≤ a i := (abs_nonneg _).trans hi.le
    simp only [List.map_cons, List.foldl_cons, List.sum_cons, List.length_cons] at hM ⊢
    have h1 := h.add hR (hi.mono hu hm) (by
      refine le_trans ?_ hM
      have p1 : (1 + u) ^ m ≤ (1 + u) ^ (m + (l.length + 1)) :=
        pow_le_pow_right₀ (by linarith) (by omega)
      have p0 : 0 ≤ (1 + u) ^ m := by positivity
      calc (1 + u) ^ m * (b + a i) ≤ (1 + u) ^ m * (b + (a i + (l.map a).sum)) :=
            mul_le_mul_of_nonneg_left (by linarith) p0
        _ ≤ _ := mul_le_mul_of_nonneg_right p1 (by positivity))
    have h2 := ih (m + 1) (s + f i) (y + x i) (b + a i) (by omega) h1
      (fun j hj => hl j (by simp [hj]))
      (by
        rw [show m + 1 + l.length = m + (l.length + 1) by omega,
          show b + a i + (l.map a).sum = b + (a i + (l.map a).sum) by ring]
        exact hM)
    rw [show m + 1 + l.length = m + (l.length + 1) by omega,
      show b + a i + (l.map a).sum = b + (a i + (l.map a).sum) by ring,
      show y + x i + (l.map x).sum = y + (x i + (l.map x).sum) by ring] at h2
    exact h2

theorem near_zero (hR : Rounds fin val u η M K) : Near fin val u 0 (0 : R) 0 0 :=
  ⟨hR.zero.1, by simp, by simp [hR.zero.2]⟩

theorem near_seq (hR : Rounds fin val u η M K) {ι : Type _} (f : ι → R) (x a : ι → F) {m0 : Nat}
    (l : List ι) (hl : ∀ i ∈ l, Near fin val u m0 (f i) (x i) (a i))
    (hM : (1 + u) ^ (m0 + l.length) * (l.map a).sum ≤ M) :
    Near fin val u (m0 + l.length) (sumSeq (l.map f)) (l.map x).sum (l.map a).sum := by
  have := near_foldl hR f x a l m0 0 0 0 le_rfl ((near_zero hR).mono hR.u_nonneg (by omega)) hl
    (by simpa using hM)
  simpa [sumSeq] using this

theorem Near.div (hR : Rounds fin val u η M K) {m q : Nat} {s : R} {x a : F}
    (h : Near fin val u m s x a) (hq : 0 < q) (hqK : q ≤ K) (hM : (1 + u) ^ m * (a / q) ≤ M) :
    fin (s / ((q : Int) : R)) ∧
    |val (s / ((q : Int) : R)) - x / q| ≤ ((1 + u) ^ (m + 1) - 1) * (a / q) + η := by
  obtain ⟨cf, cv⟩ := hR.cast q hqK
  have hq' : (0 : F) < q := by exact_mod_cast hq
  have hs : |val s / val ((q : Int) : R)| ≤ (1 + u) ^ m * (a / q) := by
    rw [cv, abs_div, abs_of_pos hq', mul_div_assoc', div_le_div_iff_of_pos_right hq']
    exact h.abs_le
  obtain ⟨f, e⟩ := hR.div s _ h.fin cf (by rw [cv]; exact hq'.ne') (hs.trans hM)
  refine ⟨f, ?_⟩
  have e1 : |val s / q - x / q| ≤ ((1 + u) ^ m - 1) * (a / q) := by
    rw [← sub_div, abs_div, abs_of_pos hq', mul_div_assoc', div_le_div_iff_of_pos_right hq']
    exact h.err
  have e2 := e.trans (add_le_add (mul_le_mul_of_nonneg_left hs hR.u_nonneg) (le_refl η))
  rw [cv] at e2
  calc |val (s / ((q : Int) : R)) - x / q|
      = |(val (s / ((q : Int) : R)) - val s / q) + (val s / q - x / q)| := by congr 1; ring
    _ ≤ |val (s / ((q : Int) : R)) - val s / q| + |val s / q - x / q| := abs_add_le _ _
    _ ≤ (u * ((1 + u) ^ m * (a / q)) + η) + ((1 + u) ^ m - 1) * (a / q) := add_le_add e2 e1
    _ = _ := by rw [pow_succ]; ring

end Knor.Spec

namespace Knor.Kmeans

open Knor Knor.Par Knor.Partition Knor.Spec

variable {R F : Type _} {k n : Nat} [Zero R] [Add R] [Div R] [IntCast R] [Field F] [LinearOrder F]
  [IsStrictOrderedRing F] {fin : R → Prop} {val : R → F} {u η M : F} {K : Nat}

theorem sum_filter_map {M : Type _} [AddCommMonoid M] {ι : Type _} (l : List ι) (p : ι → Bool) (f : ι → M) :
    ((l.filter p).map f).sum = (l.map fun i => if p i then f i else 0).sum := by
  induction l with
  | nil => rfl
  | cons a l ih => by_cases h : p a <;> simp [h, ih]

/-- Error of a cluster's sum. -/
theorem sumAny_near (hR : Rounds fin val u η M K) {N T L : Nat} {todo : Nat → List Nat}
    (hsp : Split N T todo) (hL : ∀ t, (todo t).length ≤ L) (data : Nat → Row R n)
    (hfin : ∀ r, r < N → ∀ j, fin (data r j)) (a : Nat → Option (Fin k)) (c : Fin k) (j : Fin n)
    (hM : (1 + u) ^ (L + T) * memberSum N (fun r j => |val (data r j)|) a c j ≤ M) :
    Near fin val u (L + T) (sumAny T todo data a c j) (memberSum N (fun r j => val (data r j)) a c j)
      (memberSum N (fun r j => |val (data r j)|) a c j) := by
  have hu := hR.u_nonneg
  have conv : ∀ g : Nat → Row F n, ((List.range T).map fun t =>
      (((todo t).filter fun r => a r = some c).map fun r => g r j).sum).sum = memberSum N g a c j := by
    intro g
    simp only [sum_filter_map, decide_eq_true_eq]
    rw [hsp.sum, memberSum_eq]
  set A : Nat → F := fun t =>
    (((todo t).filter fun r => a r = some c).map fun r => |val (data r j)|).sum with hA
  have hA0 : ∀ t, 0 ≤ A t := by
    intro t
    apply List.sum_nonneg
    intro z hz
    obtain ⟨r, _, rfl⟩ := List.mem_map.1 hz
    exact abs_nonneg _
  have hAsum : ((List.range T).map A).sum = memberSum N (fun r j => |val (data r j)|) a c j :=
    conv fun r j => |val (data r j)|
  have hAle : ∀ t ∈ List.range T, A t ≤ memberSum N (fun r j => |val (data r j)|) a c j := by
    intro t ht
    rw [← hAsum]
    apply List.single_le_sum
    · intro z hz
      obtain ⟨t', _, rfl⟩ := List.mem_map.1 hz
      exact hA0 t'
    · exact List.mem_map.2 ⟨t, ht, rfl⟩
  have hloc : ∀ t ∈ List.range T, Near fin val u L
      (sumSeq (((todo t).filter fun r => a r = some c).map fun r => data r j))
      (((todo t).filter fun r => a r = some c).map fun r => val (data r j)).sum (A t) := by
    intro t ht
    set l := (todo t).filter fun r => a r = some c with hl
    have hlen : l.length ≤ L := (List.length_filter_le _ _).trans (hL t)
    have := near_seq hR (fun r => data r j) (fun r => val (data r j)) (fun r => |val (data r j)|) (m0 := 0) l
      (by
        intro r hr
        have hr' : r ∈ todo t := (List.mem_filter.1 hr).1
        exact ⟨hfin r ((hsp.mem_iff r).1 ⟨t, hr'⟩) j, le_rfl, by simp⟩)
      (by
        refine le_trans ?_ hM
        have h1 := hAle t ht
        have h2 : (1 + u) ^ (0 + l.length) ≤ (1 + u) ^ (L + T) :=
          pow_le_pow_right₀ (by linarith) (by omega)
        exact mul_le_mul h2 h1 (hA0 t) (by positivity))
    exact this.mono hu (by omega)
  have := near_seq hR (fun t => sumSeq (((todo t).filter fun r => a r = some c).map fun r => data r j))
    (fun t => (((todo t).filter fun r => a r = some c).map fun r => val (data r j)).sum) A (m0 := L)
    (List.range T) hloc (by rw [hAsum, List.length_range]; exact hM)
  rw [hAsum, List.length_range, conv fun r j => val (data r j)] at this
  exact this

/-- Error of a centroid. -/
theorem clustersAny_near (hR : Rounds fin val u η M K) {N T L : Nat} {todo : Nat → List Nat}
    (hsp : Split N T todo) (hL : ∀ t, (todo t).length ≤ L) (hK : N ≤ K) (data : Nat → Row R n)
    (hfin : ∀ r, r < N → ∀ j, fin (data r j)) (a : Nat → Option (Fin k)) (c : Fin k) (j : Fin n)
    (hM : (1 + u) ^ (L + T) * memberSum N (fun r j => |val (data r j)|) a c j ≤ M) :
    fin ((clustersAny N T todo data a).means c j) ∧
    |val ((clustersAny N T todo data a).means c j) - memberMean N (fun r j => val (data r j)) a c j| ≤
      ((1 + u) ^ (L + T + 1) - 1) * memberMean N (fun r j => |val (data r j)|) a c j + η := by
  have hu := hR.u_nonneg
  have hs := sumAny_near hR hsp hL data hfin a c j hM
  have hS0 : 0 ≤ memberSum N (fun r j => |val (data r j)|) a c j := (abs_nonneg _).trans hs.le
  have hcount : Spec.count N a c ≤ N := by
    unfold Spec.count
    calc _ ≤ (Finset.range N).card := Finset.card_filter_le _ _
      _ = N := Finset.card_range N
  unfold clustersAny memberMean
  simp only
  by_cases h1 : 1 < Spec.count N a c
  · rw [if_pos h1, if_neg (by omega), if_neg (by omega)]
    refine hs.div hR (by omega) (hcount.trans hK) (le_trans ?_ hM)
    refine mul_le_mul_of_nonneg_left ?_ (by positivity)
    apply div_le_self hS0
    have : 1 ≤ Spec.count N a c := by omega
    exact_mod_cast this
  · rw [if_neg h1]
    refine ⟨hs.fin, ?_⟩
    by_cases h0 : Spec.count N a c = 0
    · rw [if_pos h0, if_pos h0]
      have hz : ∀ g : Nat → Row F n, memberSum N g a c j = 0 := by
        intro g
        unfold Spec.count at h0
        rw [Finset.card_eq_zero] at h0
        unfold memberSum
        rw [h0]; simp
      have := hs.err
      rw [hz, hz] at this
      have h2 := hR.eta_nonneg
      simp only [mul_zero] at this
      linarith
    · rw [if_neg h0, if_neg h0]
      have e : Spec.count N a c = 1 := by omega
      rw [e, Nat.cast_one, div_one, div_one]
      have := (hs.mono hu (Nat.le_succ (L + T))).err
      exact this.trans (le_add_of_nonneg_right hR.eta_nonneg)

/-- The centroid of an empty cluster is exactly zero. -/
theorem clustersAny_empty (hR : Rounds fin val u η M K) {N T : Nat} {todo : Nat → List Nat}
    (hsp : Split N T todo) (data : Nat → Row R n)
    (hfin : ∀ r, r < N → ∀ j, fin (data r j)) (a : Nat → Option (Fin k)) (c : Fin k) (j : Fin n)
    (hM : 0 ≤ M) (h0 : Spec.count N a c = 0) :
    fin ((clustersAny N T todo data a).means c j) ∧ val ((clustersAny N T todo data a).means c j) = 0 := by
  have hz : ∀ g : Nat → Row F n, memberSum N g a c j = 0 := by
    intro g
    unfold Spec.count at h0
    rw [Finset.card_eq_zero] at h0
    unfold memberSum
    rw [h0]; simp
  have hs := sumAny_near hR hsp (L := N) (fun t => by
      by_cases ht : t < T
      · have h1 : (todo t).length ≤ ((List.range T).map fun t => (todo t).length).sum :=
          List.single_le_sum (fun _ _ => Nat.zero_le _) _ (List.mem_map.2 ⟨t, List.mem_range.2 ht, rfl⟩)
        have h2 := hsp.perm.length_eq
        rw [List.length_flatMap, List.length_range] at h2
        omega
      · rw [hsp.idle t (by omega)]; simp) data hfin a c j (by rw [hz]; simpa using hM)
  have e := hs.err
  rw [hz, hz, mul_zero, sub_zero, abs_nonpos_iff] at e
  unfold clustersAny
  simp only [h0]
  rw [if_neg (by omega)]
  exact ⟨hs.fin, e⟩

theorem threadRows_length {N nt : Nat} (t : Nat) :
    (threadRows N nt t).length ≤ N / effThreads nt N + N % effThreads nt N := by
  unfold threadRows
  split
  · simp only [List.length_range']
    unfold ridLen u32
    simp only
    split
    · exact (Nat.mod_le _ _).trans (Nat.add_le_add_right (Nat.mod_le _ _) _)
    · exact (Nat.mod_le _ _).trans (Nat.le_add_right _ _)
  · simp

/-- The state a run returns was produced by an iteration, unless no iteration was allowed. -/
theorem run_last {D : Type _} [NatCast R] [LE R] [DecidableLE R] [LT D] [DecidableLT D]
    {dist : Row R n → Row R n → D} {big : D} {data : Nat → Row R n} {N nt : Nat} {tol : R} {maxIters : Nat}
    {sched : Nat → List Nat} {s0 : KState R k n} {res : Result R k n} (hm : 0 < maxIters)
    (hok : run dist big data N nt tol maxIters sched s0 = .ok res) :
    ∃ i s, iteration dist big data N nt (sched i) s = .ok res.state := by
  have gen : ∀ fuel iter (s : KState R k n),
      (0 < fuel ∧ iter ≤ maxIters) ∨ (∃ i s0, iteration dist big data N nt (sched i) s0 = .ok s) →
      loop dist big data N nt tol maxIters sched fuel iter s = .ok res →
      ∃ i s, iteration dist big data N nt (sched i) s = .ok res.state := by
    intro fuel
    induction fuel with
    | zero =>
      intro iter s h h'
      rcases h with ⟨h, _⟩ | h
      · omega
      · simp only [loop, Except.ok.injEq] at h'; subst h'; exact h
    | succ fuel ih =>
      intro iter s h h'
      unfold loop at h'
      by_cases hg : iter ≤ maxIters ∧ 0 < maxIters
      · rw [if_pos hg] at h'
        dsimp only at h'
        cases he : iteration dist big data N nt (sched iter)
            (if iter = 1 then { s with assign := fun _ => none } else s) with
        | error e => rw [he] at h'; cases h'
        | ok s2 =>
          rw [he] at h'
          dsimp only at h'
          split at h'
          · cases h'; exact ⟨_, _, he⟩
          · exact ih _ _ (Or.inr ⟨_, _, he⟩) h'
      · rw [if_neg hg] at h'
        rcases h with ⟨_, h⟩ | h
        · exact absurd ⟨h, hm⟩ hg
        · cases h'; exact h
  unfold run at hok
  rw [if_pos hm] at hok
  exact gen _ _ _ (Or.inl ⟨by omega, by omega⟩) hok

omit [Div R] [IntCast R] in
theorem foldl_zeros {l : List R} (hl : ∀ x ∈ l, x = 0) {s : R} (hs : s + 0 = s) : l.foldl (· + ·) s = s := by
  induction l with
  | nil => rfl
  | cons a l ih =>
    rw [List.foldl_cons, hl a (by simp), hs]
    exact ih fun x hx => hl x (by simp [hx])

/-- A cluster with one member: its centroid is that row, as soon as adding zero changes nothing. -/
theorem clustersAny_single {N T : Nat} {todo : Nat → List Nat} (hsp : Split N T todo)
    (data : Nat → Row R n) (a : Nat → Option (Fin k)) (c : Fin k) (j : Fin n) {r : Nat} (hr : r < N)
    (h0 : (0 : R) + 0 = 0) (h1 : (0 : R) + data r j = data r j) (h2 : data r j + 0 = data r j)
    (hm : ∀ r', r' < N → (a r' = some c ↔ r' = r)) :
    (clustersAny N T todo data a).means c j = data r j := by
  have hcount : Spec.count N a c = 1 := by
    unfold Spec.count
    rw [Finset.card_eq_one]
    refine ⟨r, ?_⟩
    ext r'
    simp only [Finset.mem_filter, Finset.mem_range, Finset.mem_singleton]
    constructor
    · rintro ⟨h, h'⟩; exact (hm r' h).1 h'
    · rintro rfl; exact ⟨hr, (hm r' hr).2 rfl⟩
  unfold clustersAny
  simp only [hcount]
  rw [if_neg (by omega)]
  obtain ⟨t0, ht0⟩ := (hsp.mem_iff r).2 hr
  have htT : t0 < T := by
    by_contra h
    rw [hsp.idle t0 (by omega)] at ht0
    simp at ht0
  have hfil : ∀ t, ((todo t).filter fun r' => a r' = some c) = if t = t0 then [r] else [] := by
    intro t
    have e : ((todo t).filter fun r' => a r' = some c) = (todo t).filter (· = r) := by
      apply List.filter_congr
      intro r' hr'
      simp [hm r' ((hsp.mem_iff r').1 ⟨t, hr'⟩)]
    rw [e]
    split
    · rename_i h
      subst h
      have := List.filter_beq (l := todo t) r
      rw [List.count_eq_one_of_mem (hsp.disjoint.nodup t) ht0] at this
      rw [List.replicate_one] at this
      rw [← this]
      apply List.filter_congr
      intro x _
      simp [beq_eq_decide]
    · rename_i h
      rw [List.filter_eq_nil_iff]
      intro r' hr'
      simp only [decide_eq_true_eq]
      rintro rfl
      exact h (hsp.disjoint.disj t t0 r' hr' ht0)
  obtain ⟨l1, l2, hl⟩ := List.append_of_mem (List.mem_range.2 htT)
  have hnd : (l1 ++ t0 :: l2).Nodup := hl ▸ List.nodup_range
  rw [List.nodup_append] at hnd
  have hz : ∀ l : List Nat, t0 ∉ l → ∀ x ∈ l.map (fun t =>
      sumSeq (((todo t).filter fun r' => a r' = some c).map fun r => data r j)), x = 0 := by
    intro l hl x hx
    obtain ⟨t, ht, rfl⟩ := List.mem_map.1 hx
    rw [hfil t, if_neg (by rintro rfl; exact hl ht)]
    rfl
  have hx : sumSeq (((todo t0).filter fun r' => a r' = some c).map fun r => data r j) = data r j := by
    rw [hfil t0, if_pos rfl]
    exact h1
  unfold sumAny
  rw [hl, List.map_append, List.map_cons, hx]
  change List.foldl _ _ _ = _
  rw [List.foldl_append, List.foldl_cons]
  rw [foldl_zeros (hz l1 fun h => hnd.2.2 _ h _ (by simp) rfl) h0]
  have hl2 : t0 ∉ l2 := (List.nodup_cons.1 hnd.2.1).1
  rw [h1]
  exact foldl_zeros (hz l2 hl2) h2

end Knor.Kmeans
