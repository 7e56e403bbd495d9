import Verif.Model.MedoidDriver
import Verif.Props.FuzzyDriver
import Verif.Props.Medoid

/-!
# Property C89: a whole k-medoids call

From the names of the options and the caller's data to the returned clustering, and the program `medoids`.
-/

namespace Knor.Driver

open Knor Knor.Spec Knor.Io Knor.Partition Knor.Par Knor.Kmeans Knor.Init

variable {R S B : Type _} {k n : Nat}

/-- Medoids and assignment of a state. -/
def medoidSnap (s : Medoid.MState R R k n) : Snap R k n := ⟨s.cents, s.assign⟩

/-- The loop of the coordinator. -/
theorem medoid_loop [Field R] [LinearOrder R] [IsStrictOrderedRing R] {dist : Row R n → Row R n → R}
    (hsym : ∀ x y, dist x y = dist y x) (hself : ∀ x, dist x x = 0) {big : R} {data : Nat → Row R n} {N nt : Nat}
    {draw : Nat → Nat → R} {rate tol : R} {maxIters : Nat} {s1 s2 : Nat → List Nat}
    (hk : 0 < k) (hn : 0 < N) (hnt : 0 < nt) (hlt : N < 4294967296) (ht : Medoid.Tame dist big data N)
    (hc1 : ∀ i, Complete (effThreads nt N) (threadRows N nt) (s1 i))
    (hc2 : ∀ i, Complete (effThreads nt N) (threadRows N nt) (s2 i)) :
    ∀ (fuel iter : Nat) (s : Medoid.MState R R k n), Medoid.Synced dist N data s → 1 ≤ iter → iter ≤ maxIters →
      maxIters + 2 = fuel + iter →
      ∃ (res : Medoid.Result R R k n) (t : Nat) (tr : Nat → Medoid.MState R R k n),
        Medoid.loop dist big data N nt draw rate tol maxIters s1 s2 fuel iter s = .ok res ∧
        tr 0 = s ∧ tr t = res.state ∧ 1 ≤ t ∧ iter + t ≤ maxIters + 1 ∧
        (∀ i, i ≤ t → Medoid.Synced dist N data (tr i)) ∧
        (∀ i, i < t → Medoid.Step dist N data (draw (iter + i)) rate (tr i) (tr (i + 1))) ∧
        (∀ i, 1 ≤ i → i < t → ¬ StopsAt N tol (fun i => medoidSnap (tr i)) i) ∧
        ((StopsAt N tol (fun i => medoidSnap (tr i)) t ∧ res.iters + 1 = iter + t) ∨
          (¬ StopsAt N tol (fun i => medoidSnap (tr i)) t ∧ iter + t = maxIters + 1 ∧ res.iters = maxIters + 1)) := by
  intro fuel
  induction fuel with
  | zero => intro iter s _ _ h3 h4; omega
  | succ fuel ih =>
    intro iter s hs h1 h2 h3
    obtain ⟨s', hok⟩ := Medoid.iteration_ok (draw := draw iter) (rate := rate) hk hn hnt hlt ht (hc1 iter) (hc2 iter) hs
    obtain ⟨-, hs', hst⟩ := Medoid.iteration_step hsym hself hn hnt hlt (hc1 iter) (hc2 iter) hs hok
    unfold Medoid.loop
    rw [if_pos ⟨h2, by omega⟩, hok]
    dsimp only
    have hconv : ∀ tr : Nat → Medoid.MState R R k n, tr 0 = s → tr 1 = s' →
        (convTest N tol s'.changed = true ↔ StopsAt N tol (fun i => medoidSnap (tr i)) 1) := by
      intro tr e0 e1
      rw [convTest_iff, hst.changed]
      unfold StopsAt medoidSnap
      simp only [e1, Nat.sub_self, e0]
    by_cases hcv : convTest N tol s'.changed = true
    · rw [if_pos hcv]
      refine ⟨⟨iter, s'⟩, 1, fun i => if i = 0 then s else s', rfl, rfl, rfl, le_refl _, by omega, ?_, ?_, ?_, ?_⟩
      · intro i hi
        have : i = 0 ∨ i = 1 := by omega
        rcases this with rfl | rfl
        · exact hs
        · exact hs'
      · intro i hi
        have : i = 0 := by omega
        subst this
        exact hst
      · intro i hi1 hi2; omega
      · exact Or.inl ⟨(hconv _ rfl rfl).1 hcv, rfl⟩
    · rw [if_neg hcv]
      rcases Nat.lt_or_ge iter maxIters with hl | hl
      · obtain ⟨res, t, tr, e, e0, el, ht1, ht2, q1, q2, q3, q4⟩ := ih (iter + 1) s' hs' (by omega) hl (by omega)
        have hshift : ∀ i, 1 ≤ i → (StopsAt N tol (fun i => medoidSnap (tr i)) i ↔
            StopsAt N tol (fun i => medoidSnap (if i = 0 then s else tr (i - 1))) (i + 1)) := by
          intro i hi
          obtain ⟨i, rfl⟩ : ∃ i', i = i' + 1 := ⟨i - 1, by omega⟩
          unfold StopsAt
          simp
        refine ⟨res, t + 1, fun i => if i = 0 then s else tr (i - 1), e, rfl, ?_, by omega, by omega, ?_, ?_, ?_, ?_⟩
        · simpa using el
        · intro i hi
          rcases Nat.eq_zero_or_pos i with rfl | hp
          · exact hs
          · simp only [if_neg (by omega : i ≠ 0)]
            exact q1 (i - 1) (by omega)
        · intro i hi
          rcases Nat.eq_zero_or_pos i with rfl | hp
          · simpa [e0] using hst
          · have := q2 (i - 1) (by omega)
            simp only [if_neg (by omega : i ≠ 0), Nat.add_one_ne_zero, if_false, Nat.add_sub_cancel]
            have e1 : iter + 1 + (i - 1) = iter + i := by omega
            have e2 : i - 1 + 1 = i := by omega
            rwa [e1, e2] at this
        · intro i hi1 hi2
          rcases Nat.lt_or_ge 1 i with h | h
          · obtain ⟨i, rfl⟩ : ∃ i', i = i' + 1 := ⟨i - 1, by omega⟩
            exact fun hh => q3 i (by omega) (by omega) ((hshift i (by omega)).2 hh)
          · have : i = 1 := by omega
            subst this
            exact fun hh => hcv ((hconv (fun i => if i = 0 then s else tr (i - 1)) rfl (by simpa using e0)).2 hh)
        · rcases q4 with ⟨a1, a2⟩ | ⟨a1, a2, a3⟩
          · exact Or.inl ⟨(hshift t ht1).1 a1, by omega⟩
          · exact Or.inr ⟨fun hh => a1 ((hshift t ht1).2 hh), by omega, a3⟩
      · have hi : iter = maxIters := by omega
        subst hi
        have hf : fuel = 1 := by omega
        subst hf
        refine ⟨⟨iter + 1, s'⟩, 1, fun i => if i = 0 then s else s', by
          unfold Medoid.loop
          rw [if_neg (by omega)], rfl, rfl, le_refl _, by omega, ?_, ?_, ?_, ?_⟩
        · intro i hi
          have : i = 0 ∨ i = 1 := by omega
          rcases this with rfl | rfl
          · exact hs
          · exact hs'
        · intro i hi
          have : i = 0 := by omega
          subst this
          exact hst
        · intro i hi1 hi2; omega
        · exact Or.inr ⟨fun hh => hcv ((hconv (fun i => if i = 0 then s else s') rfl rfl).2 hh), by omega, rfl⟩

/-- A run of the coordinator. -/
theorem medoid_run [Field R] [LinearOrder R] [IsStrictOrderedRing R] {dist : Row R n → Row R n → R}
    (hsym : ∀ x y, dist x y = dist y x) (hself : ∀ x, dist x x = 0) {big : R} {data : Nat → Row R n} {N nt : Nat}
    {draw : Nat → Nat → R} {rate tol : R} {maxIters : Nat} {s0 : List Nat} {s1 s2 : Nat → List Nat}
    (hk : 0 < k) (hn : 0 < N) (hnt : 0 < nt) (hlt : N < 4294967296) (ht : Medoid.Tame dist big data N)
    (pick : Fin k → Nat) (hpick : ∀ c, pick c < N)
    (hc0 : Complete (effThreads nt N) (threadRows N nt) s0)
    (hc1 : ∀ i, Complete (effThreads nt N) (threadRows N nt) (s1 i))
    (hc2 : ∀ i, Complete (effThreads nt N) (threadRows N nt) (s2 i)) :
    ∃ res, Medoid.run true dist big data N nt pick draw rate tol maxIters s0 s1 s2 = .ok res ∧
      MedoidResult dist N data (fun i r => draw i r ≤ max (1 / 5) rate) tol maxIters (fun c => data (pick c)) res.iters
        (medoidSnap res.state) res.state.counts := by
  have hrate : Medoid.effRate rate = max (1 / 5) rate := by
    unfold Medoid.effRate
    split
    · exact (max_eq_right (le_of_lt ‹_›)).symm
    · exact (max_eq_left (not_lt.1 ‹_›)).symm
  obtain ⟨s, h0⟩ : ∃ s, Medoid.runInit true dist big data N nt pick s0 = .ok s := by
    unfold Medoid.runInit
    simp only [if_true]
    exact Medoid.em_ok hk hn hnt hlt ht hc0 fun c => ⟨hpick c, rfl⟩
  have hsy := Medoid.init_synced hn hnt hlt hc0 hpick h0
  have hcent : s.cents = fun c => data (pick c) := by
    unfold Medoid.runInit at h0
    simp only [if_true] at h0
    exact (Medoid.synced_of_em (s := Medoid.forgy data pick Medoid.blank) hn hnt hlt hc0 (fun c => ⟨hpick c, rfl⟩) rfl rfl
      h0).2.1
  have hnear : ∀ r, r < N → ∃ c, s.assign r = some c ∧ IsFirstNearest (fun c => dist (data r) (data (pick c))) c := by
    intro r hr
    obtain ⟨c, e, h⟩ := hsy.near r hr
    rw [hcent] at h
    exact ⟨c, e, h⟩
  have hcnt : ∀ (s : Medoid.MState R R k n), Medoid.Synced dist N data s → ∀ c, s.counts c =
      (((Finset.range N).filter fun r => s.assign r = some c).card : Int) := fun s hs c => hs.counts c
  unfold Medoid.run
  rw [h0]
  dsimp only
  rcases Nat.eq_zero_or_pos maxIters with rfl | hm
  · refine ⟨⟨0, s⟩, rfl, 0, fun _ => medoidSnap s, ⟨hcent, hnear⟩, rfl, le_refl _, fun i hi => absurd hi (by omega),
      fun i _ hi => absurd hi (by omega), Or.inl ⟨rfl, rfl⟩, hcnt s hsy⟩
  · rw [if_pos hm]
    obtain ⟨res, t, tr, e, e0, el, ht1, ht2, q1, q2, q3, q4⟩ := medoid_loop (draw := draw) (tol := tol)
      (rate := Medoid.effRate rate) (maxIters := maxIters) hsym hself hk hn hnt hlt ht hc1 hc2 (maxIters + 1) 1 s hsy
      (le_refl _) hm (by omega)
    refine ⟨res, e, t, fun i => medoidSnap (tr i), ⟨?_, ?_⟩, congrArg medoidSnap el, by omega, ?_, q3, ?_, ?_⟩
    · show (tr 0).cents = _
      rw [e0, hcent]
    · show ∀ r, r < N → ∃ c, (tr 0).assign r = some c ∧ _
      rw [e0]; exact hnear
    · intro i hi
      have hst := q2 i hi
      have hs' := q1 (i + 1) (by omega)
      rw [hrate, Nat.add_comm 1 i] at hst
      refine ⟨fun c => ?_, hst.best, hs'.near⟩
      rcases hst.kept c with h | h
      · exact Or.inl h.1
      · exact Or.inr ⟨(tr (i + 1)).ids c, (hs'.row c).1, h.1.1, h.1.2, (hs'.row c).2, h.2⟩
    · rcases q4 with ⟨a1, a2⟩ | ⟨a1, a2, a3⟩
      · exact Or.inr (Or.inl ⟨ht1, a1, by omega⟩)
      · exact Or.inr (Or.inr ⟨ht1, a1, by omega, a3⟩)
    · exact hcnt res.state (by rw [← el]; exact q1 t (le_refl _))

theorem energyAt_data [AddCommMonoid R] {dist : Row R n → Row R n → R} {N : Nat} {data data' : Nat → Row R n}
    (h : ∀ r, r < N → data r = data' r) (a : Nat → Option (Fin k)) (c : Fin k) (x : Row R n) :
    energyAt dist N data a c x = energyAt dist N data' a c x := by
  unfold energyAt
  refine Finset.sum_congr rfl fun r hr => ?_
  rw [h r (Finset.mem_range.1 (Finset.mem_filter.1 hr).1)]

/-- A result on rows that agree with other rows. -/
theorem medoid_data [Field R] [LinearOrder R] {dist : Row R n → Row R n → R} {N : Nat} {data data' : Nat → Row R n}
    (h : ∀ r, r < N → data r = data' r) {sampled : Nat → Nat → Prop} {tol : R} {maxIters : Nat}
    {y0 : Fin k → Row R n} {iters : Nat} {last : Snap R k n} {sizes : Fin k → Int}
    (hr : MedoidResult dist N data sampled tol maxIters y0 iters last sizes) :
    MedoidResult dist N data' sampled tol maxIters y0 iters last sizes := by
  obtain ⟨t, tr, ⟨h0, h1⟩, hl, hm, hs, h3⟩ := hr
  refine ⟨t, tr, ⟨h0, fun r hr => by rw [← h r hr]; exact h1 r hr⟩, hl, hm, fun i hi => ⟨fun c => ?_, fun c r hr ha hsm => ?_,
    fun r hr => by rw [← h r hr]; exact (hs i hi).near r hr⟩, h3⟩
  · rcases (hs i hi).kept c with q | ⟨r, q1, q2, q3, q4, q5⟩
    · exact Or.inl q
    · refine Or.inr ⟨r, q1, q2, q3, by rw [← h r q1]; exact q4, ?_⟩
      rw [← energyAt_data h, ← energyAt_data h]
      exact q5
  · rw [← energyAt_data h, ← energyAt_data h, ← h r hr]
    exact (hs i hi).best c r hr ha hsm

/-- The calls that throw. -/
theorem medoids_throws [Zero R] [One R] [Add R] [Div R] [NatCast R] [LT R] [DecidableLT R] [LE R] [DecidableLE R]
    (dist : Dist.Metric → Row R n → Row R n → R) (big : R) {c : Codec R B} (hc : CodecOk c) (rng : Rng R S k)
    (draw : Nat → Nat → R) (s0 : List Nat) (s1 s2 : Nat → List Nat) (rate : R) (a : Call R B) (m : Nat → Nat → R)
    (given : Option (Nat → Nat → R))
    (hk : 0 < k) (hcol : 0 < n) (hn : 0 < a.nrow) (hnt : 0 < a.nthreads) (hlt : a.nrow < 4294967296)
    (hsz : a.nrow * n * c.size < 9223372036854775808) (hst : Holds c a.source m a.nrow n)
    (hgiven : a.centers = given.map fun g => rowsFrom g n 0 k)
    (h : a.init ≠ "forgy" ∨ a.dist ∉ ["eucl", "cos", "taxi", "sqeucl"] ∨ ∃ l nodes, a.source = .numa l nodes) :
    medoids (n := n) dist big c rng draw s0 s1 s2 rate a = .error .throws := by
  obtain ⟨ws, el, -⟩ := load_ok (n := n) hc m a hn hnt hcol hlt hsz hst
  obtain ⟨cl, ecl, -⟩ : ∃ cl : InitT → Clusters R k n, (∀ it, construct it a.centers = .ok (cl it)) ∧ True := by
    refine ⟨fun it => (construct_ok (k := k) (n := n) hk it given).choose, fun it => ?_, trivial⟩
    rw [hgiven]
    exact (construct_ok (k := k) (n := n) hk it given).choose_spec.1
  have hdist : a.dist ∈ ["eucl", "cos", "taxi", "sqeucl"] → ∃ met, getDist a.dist = .ok met := by
    intro hd
    simp only [List.mem_cons, List.not_mem_nil, or_false] at hd
    rcases hd with h1 | h1 | h1 | h1 <;> (rw [h1]; exact ⟨_, rfl⟩)
  unfold medoids
  by_cases hi : a.init ∈ ["random", "forgy", "kmeanspp", "none"]
  · obtain ⟨it, hit, hfi⟩ : ∃ it, getInit a.init = .ok it ∧ (a.init = "forgy" ↔ it = .forgy) := by
      simp only [List.mem_cons, List.not_mem_nil, or_false] at hi
      rcases hi with h1 | h1 | h1 | h1 <;> (rw [h1]; exact ⟨_, rfl, by decide⟩)
    rw [hit]; dsimp only
    by_cases hd : a.dist ∈ ["eucl", "cos", "taxi", "sqeucl"]
    · obtain ⟨met, hm⟩ := hdist hd
      rw [hm]; dsimp only
      rw [ecl it]; dsimp only
      unfold loadMedoid
      rcases h with h | h | ⟨l, nodes, h⟩
      · cases hs : a.source with
        | numa l nodes => rfl
        | file b =>
          dsimp only
          rw [el]; dsimp only
          unfold Medoid.run Medoid.runInit
          rw [show decide (it = .forgy) = false from decide_eq_false fun e => h (hfi.2 e)]
          rfl
        | array b =>
          dsimp only
          rw [el]; dsimp only
          unfold Medoid.run Medoid.runInit
          rw [show decide (it = .forgy) = false from decide_eq_false fun e => h (hfi.2 e)]
          rfl
      · exact absurd hd h
      · rw [h]
    · simp only [List.mem_cons, List.not_mem_nil, or_false, not_or] at hd
      rw [show getDist a.dist = .error .throws by simp [getDist, hd]]
  · simp only [List.mem_cons, List.not_mem_nil, or_false, not_or] at hi
    rw [show getInit a.init = .error .throws by simp [getInit, hi]]

/-- **C89.**  A call whose option names are not among the documented ones throws; so does every call with the
documented initialisations other than `forgy`, and with `numa_opt`.  With `forgy`, a call on an `nrow × n` matrix
whose Euclidean distances are symmetric and do not overflow returns the result of k-medoids with the **Euclidean**
distance, from rows drawn at random; in iteration `i` the rows with a draw of at most the rate, or a fifth, are
sampled.  Missing: the requested metric (`C89_violated_metric`), the other initialisations. -/
theorem C89_call_partial [Field R] [LinearOrder R] [IsStrictOrderedRing R]
    (dist : Dist.Metric → Row R n → Row R n → R) (hsym : ∀ x y, dist .eucl x y = dist .eucl y x)
    (hself : ∀ x, dist .eucl x x = 0) (big : R) {c : Codec R B} (hc : CodecOk c) (rng : Rng R S k)
    (draw : Nat → Nat → R) (s0 : List Nat) (s1 s2 : Nat → List Nat) (rate : R) (a : Call R B) (m : Nat → Nat → R)
    (given : Option (Nat → Nat → R))
    (hk : 0 < k) (hcol : 0 < n) (hn : 0 < a.nrow) (hnt : 0 < a.nthreads) (hlt : a.nrow < 4294967296)
    (hsz : a.nrow * n * c.size < 9223372036854775808) (hst : Holds c a.source m a.nrow n)
    (hgiven : a.centers = given.map fun g => rowsFrom g n 0 k) (hrng : RngOk rng a.nrow)
    (hc0 : Complete (effThreads a.nthreads a.nrow) (threadRows a.nrow a.nthreads) s0)
    (hc1 : ∀ i, Complete (effThreads a.nthreads a.nrow) (threadRows a.nrow a.nthreads) (s1 i))
    (hc2 : ∀ i, Complete (effThreads a.nthreads a.nrow) (threadRows a.nrow a.nthreads) (s2 i)) :
    ((a.init ≠ "forgy" ∨ a.dist ∉ ["eucl", "cos", "taxi", "sqeucl"] ∨ ∃ l nodes, a.source = .numa l nodes) →
      medoids dist big c rng draw s0 s1 s2 rate a = .error .throws) ∧
    (a.init = "forgy" → a.dist ∈ ["eucl", "cos", "taxi", "sqeucl"] → (∀ l nodes, a.source ≠ .numa l nodes) →
      Medoid.Tame (dist .eucl) big (matRows m) a.nrow →
      ∃ res y0, medoids dist big c rng draw s0 s1 s2 rate a = .ok res ∧
        StartsAt .forgy (dist .eucl) (matRows m) a.nrow rng none y0 ∧
        MedoidResult (dist .eucl) a.nrow (matRows m) (fun i r => draw i r ≤ max (1 / 5) rate) a.tol a.maxIters y0
          res.iters (medoidSnap res.state) res.state.counts) := by
  obtain ⟨ws, el, hrows⟩ := load_ok hc m a hn hnt hcol hlt hsz hst
  obtain ⟨cl, ecl, -⟩ : ∃ cl : InitT → Clusters R k n, (∀ it, construct it a.centers = .ok (cl it)) ∧ True := by
    refine ⟨fun it => (construct_ok (k := k) (n := n) hk it given).choose, fun it => ?_, trivial⟩
    rw [hgiven]
    exact (construct_ok (k := k) (n := n) hk it given).choose_spec.1
  have hdist : a.dist ∈ ["eucl", "cos", "taxi", "sqeucl"] → ∃ met, getDist a.dist = .ok met := by
    intro hd
    simp only [List.mem_cons, List.not_mem_nil, or_false] at hd
    rcases hd with h1 | h1 | h1 | h1 <;> (rw [h1]; exact ⟨_, rfl⟩)
  constructor
  · exact medoids_throws dist big hc rng draw s0 s1 s2 rate a m given hk hcol hn hnt hlt hsz hst hgiven
  · intro hi hd hnn ht
    obtain ⟨met, hm⟩ := hdist hd
    have hload : loadMedoid c a n = .ok ws := by
      unfold loadMedoid
      cases hs : a.source with
      | numa l nodes => exact absurd hs (hnn l nodes)
      | file b => exact el
      | array b => exact el
    have ht' : Medoid.Tame (dist .eucl) big (rowsIn (n := n) ws a.nrow a.nthreads) a.nrow := by
      refine ⟨ht.1, fun r0 hr0 => ?_⟩
      rw [hrows r0 hr0]
      refine lt_of_le_of_lt (le_of_eq (Finset.sum_congr rfl fun r hr => ?_)) (ht.2 r0 hr0)
      rw [hrows r (Finset.mem_range.1 hr)]
    obtain ⟨res, e, h⟩ := medoid_run (draw := draw) (rate := rate) (tol := a.tol) (maxIters := a.maxIters) hsym hself hk
      hn hnt hlt ht' (medoidPick rng) (fun c => hrng.row _) hc0 hc1 hc2
    refine ⟨res, _, ?_, fun c => ⟨medoidPick rng c, hrng.row _, outputs_get _ _ _ _ c.isLt, ?_⟩, medoid_data hrows h⟩
    · unfold medoids
      rw [show getInit a.init = .ok .forgy by rw [hi]; rfl]; dsimp only
      rw [hm]; dsimp only
      rw [ecl]; dsimp only
      rw [hload]
      exact e
    · exact hrows _ (hrng.row _)

/-- The sums of Euclidean distances of bounded rows. -/
theorem tame_bounded (big X : ℝ) (hX : 0 ≤ X) {N : Nat} (hl : N * (n * (2 * X)) < big) {data : Nat → Row ℝ n}
    (hm : ∀ r, r < N → ∀ j, |data r j| ≤ X) : Medoid.Tame (realDist big .eucl) big data N := by
  have hd : ∀ x y : Row ℝ n, realDist big .eucl x y = Real.sqrt (∑ j, (x j - y j) ^ 2) := by
    intro x y
    unfold realDist
    rw [(Dist.C36_dispatch x y).1, Option.getD_some]
  refine ⟨fun x y => by rw [hd]; exact Real.sqrt_nonneg _, fun r0 hr0 => ?_⟩
  refine lt_of_le_of_lt (Finset.sum_le_card_nsmul _ _ (n * (2 * X)) fun r hr => ?_) (by simpa using hl)
  have hr' := Finset.mem_range.1 hr
  have hj : ∀ j, |data r j - data r0 j| ≤ 2 * X := fun j => by
    have := abs_sub (data r j) (data r0 j)
    linarith [hm r hr' j, hm r0 hr0 j]
  rw [hd, Real.sqrt_le_iff]
  refine ⟨by positivity, ?_⟩
  have h1 : ∑ j, (data r j - data r0 j) ^ 2 ≤ n * (2 * X) ^ 2 := by
    refine (Finset.sum_le_card_nsmul (Finset.univ : Finset (Fin n)) _ ((2 * X) ^ 2) fun j _ => ?_).trans (by simp)
    rw [← sq_abs]
    exact pow_le_pow_left₀ (abs_nonneg _) (hj j) 2
  refine h1.trans ?_
  rw [mul_pow (n : ℝ)]
  refine mul_le_mul_of_nonneg_right ?_ (by positivity)
  have : n ≤ n ^ 2 := by rw [pow_two]; exact Nat.le_mul_self n
  exact_mod_cast this

theorem realDist_eucl_comm (big : ℝ) (x y : Row ℝ n) : realDist big .eucl x y = realDist big .eucl y x := by
  unfold realDist
  rw [(Dist.C36_dispatch x y).1, (Dist.C36_dispatch y x).1]
  simp only [Option.getD_some]
  congr 1
  exact Finset.sum_congr rfl fun j _ => by ring

/-- **C89, the program.**  `medoids` refuses a data file of the wrong size; without a file of centres, on a file with
entries of at most `X` in size, it returns the result of k-medoids with the Euclidean distance, from rows drawn at
random.  Missing: the requested metric, and centres (`C89_violated_centers`). -/
theorem C89_program_partial (big X : ℝ) (hX : 0 ≤ X) {c : Codec ℝ B} (hc : CodecOk c) (rng : Rng ℝ S k)
    (draw : Nat → Nat → ℝ) (s0 : List Nat) (s1 s2 : Nat → List Nat) (rate : ℝ) (datafn : List B) (hasCenters : Bool)
    (nrow maxIters nthreads : Nat) (tol : ℝ) (distType : String)
    (hk : 0 < k) (hcol : 0 < n) (hn : 0 < nrow) (hnt : 0 < nthreads) (hlt : nrow < 4294967296)
    (hsz : nrow * n * c.size < 9223372036854775808) (hrng : RngOk rng nrow) (hl : nrow * (n * (2 * X)) < big)
    (hc0 : Complete (effThreads nthreads nrow) (threadRows nrow nthreads) s0)
    (hc1 : ∀ i, Complete (effThreads nthreads nrow) (threadRows nrow nthreads) (s1 i))
    (hc2 : ∀ i, Complete (effThreads nthreads nrow) (threadRows nrow nthreads) (s2 i)) :
    (datafn.length ≠ nrow * n * c.size →
      medoidsProg (n := n) (realDist big) big c rng draw s0 s1 s2 rate datafn hasCenters nrow maxIters nthreads tol
        distType = .error .throws) ∧
    ∀ m : Nat → Nat → ℝ, Stores c datafn m nrow n → (∀ r j, r < nrow → j < n → |m r j| ≤ X) →
      distType ∈ ["eucl", "cos", "taxi", "sqeucl"] → hasCenters = false →
      ∃ res y0, medoidsProg (n := n) (realDist big) big c rng draw s0 s1 s2 rate datafn hasCenters nrow maxIters nthreads
          tol distType = .ok res ∧
        StartsAt .forgy (realDist big .eucl) (matRows m) nrow rng none y0 ∧
        MedoidResult (realDist big .eucl) nrow (matRows m) (fun i r => draw i r ≤ max (1 / 5) rate) tol maxIters y0
          res.iters (medoidSnap res.state) res.state.counts := by
  have hu : u64 (u64 (c.size * nrow) * n) = nrow * n * c.size := by
    have h0 : c.size * nrow * n = nrow * n * c.size := by ring
    rw [u64_mul (by omega), h0]
  constructor
  · intro hne
    unfold medoidsProg
    dsimp only
    rw [if_pos (by rw [hu]; exact hne)]
  · rintro m hst hm hd rfl
    have hlen : datafn.length = nrow * n * c.size := by
      unfold Stores at hst
      rw [hst, length_enc hc, length_rowsFrom]
    unfold medoidsProg
    dsimp only
    rw [if_neg (by rw [hu]; simp [hlen])]
    obtain ⟨y, ey⟩ := read_stored (n := n) hc m nrow (Nat.mul_pos hn hcol) (by omega) hst
    rw [ey]
    exact (C89_call_partial (realDist big) (realDist_eucl_comm big) (fun x => realDist_self (by decide) x) big hc rng draw
      s0 s1 s2 rate ⟨.array (rowsFrom m n 0 nrow), nrow, maxIters, nthreads, none, "forgy", tol, distType⟩ m none hk hcol hn
      hnt hlt hsz rfl rfl hrng hc0 hc1 hc2).2 rfl hd (fun l nodes h => by cases h)
      (tame_bounded big X hX hl fun r hr j => hm r j.val hr j.isLt)

/-! ### Where it fails -/

/-- **C89 is violated: centres.**  `medoids` with a file of centres never returns a result: the data is read, and then
the initialisation `none` is refused.  (The file of centres is not even read.) -/
theorem C89_violated_centers (big : ℝ) {c : Codec ℝ B} (hc : CodecOk c) (rng : Rng ℝ S k)
    (draw : Nat → Nat → ℝ) (s0 : List Nat) (s1 s2 : Nat → List Nat) (rate : ℝ) (datafn : List B)
    (nrow maxIters nthreads : Nat) (tol : ℝ) (distType : String) (m : Nat → Nat → ℝ)
    (hk : 0 < k) (hcol : 0 < n) (hn : 0 < nrow) (hnt : 0 < nthreads) (hlt : nrow < 4294967296)
    (hsz : nrow * n * c.size < 9223372036854775808) (hrng : RngOk rng nrow) (hst : Stores c datafn m nrow n)
    (hc0 : Complete (effThreads nthreads nrow) (threadRows nrow nthreads) s0)
    (hc1 : ∀ i, Complete (effThreads nthreads nrow) (threadRows nrow nthreads) (s1 i))
    (hc2 : ∀ i, Complete (effThreads nthreads nrow) (threadRows nrow nthreads) (s2 i)) :
    medoidsProg (n := n) (realDist big) big c rng draw s0 s1 s2 rate datafn true nrow maxIters nthreads tol distType
      = .error .throws := by
  have hu : u64 (u64 (c.size * nrow) * n) = nrow * n * c.size := by
    have h0 : c.size * nrow * n = nrow * n * c.size := by ring
    rw [u64_mul (by omega), h0]
  have hlen : datafn.length = nrow * n * c.size := by
    unfold Stores at hst
    rw [hst, length_enc hc, length_rowsFrom]
  unfold medoidsProg
  dsimp only
  rw [if_neg (by rw [hu]; simp [hlen])]
  obtain ⟨y, ey⟩ := read_stored (n := n) hc m nrow (Nat.mul_pos hn hcol) (by omega) hst
  rw [ey]
  exact (C89_call_partial (realDist big) (realDist_eucl_comm big) (fun x => realDist_self (by decide) x) big hc rng draw
    s0 s1 s2 rate ⟨.array (rowsFrom m n 0 nrow), nrow, maxIters, nthreads, none, "none", tol, distType⟩ m none hk hcol hn
    hnt hlt hsz rfl rfl hrng hc0 hc1 hc2).1 (Or.inl (show "none" ≠ "forgy" by decide))

/-! ### Calls that meet the hypotheses -/

/-- The program on the four rows. -/
example : ∃ (res : Medoid.Result ℝ ℝ 2 1) (y0 : Fin 2 → Row ℝ 1),
    medoidsProg (realDist 1000) 1000 (oneCell ℝ) (counter ℝ) (fun _ _ => 0) (demoSched 0) demoSched demoSched (1 / 5)
      ((rowsFrom fourRows 1 0 4).flatMap (oneCell ℝ).enc) false 4 100 2 (-1) "taxi" = .ok res ∧
    StartsAt .forgy (realDist 1000 .eucl) (matRows fourRows) 4 (counter ℝ) none y0 ∧
    MedoidResult (realDist 1000 .eucl) 4 (matRows fourRows) (fun _ _ => (0 : ℝ) ≤ max (1 / 5) (1 / 5)) (-1) 100 y0
      res.iters (medoidSnap res.state) res.state.counts :=
  (C89_program_partial 1000 12 (by norm_num) (oneCell_ok ℝ) (counter ℝ) (fun _ _ => 0) (demoSched 0) demoSched demoSched
    (1 / 5) _ false 4 100 2 (-1) "taxi" (by decide) (by decide) (by decide) (by decide) (by decide) (by decide)
    (counter_ok ℝ) (by norm_num) (two_sched 0) two_sched two_sched).2 fourRows rfl
    (fun r j _ _ => by unfold fourRows; split_ifs <;> norm_num) (by simp) rfl

/-- It refuses a file of centres. -/
example : medoidsProg (k := 2) (n := 1) (realDist 1000) 1000 (oneCell ℝ) (counter ℝ) (fun _ _ => 0) (demoSched 0)
    demoSched demoSched (1 / 5) ((rowsFrom fourRows 1 0 4).flatMap (oneCell ℝ).enc) true 4 100 2 (-1) "taxi"
    = .error .throws :=
  C89_violated_centers 1000 (oneCell_ok ℝ) (counter ℝ) (fun _ _ => 0) (demoSched 0) demoSched demoSched (1 / 5) _ 4 100 2
    (-1) "taxi" fourRows (by decide) (by decide) (by decide) (by decide) (by decide) (by decide) (counter_ok ℝ) rfl
    (two_sched 0) two_sched two_sched

/-- Run it on an array of one column: iterations, assignment and medoids. -/
def showMedoids (init dist : String) (maxIters : Nat) : Res SeenCall :=
  (medoids (k := 2) (n := 1) (fun _ => demoDist) 1000 (oneCell ℚ) (counter ℚ) (fun _ _ => 0) (demoSched 0) demoSched
    demoSched (1 / 5) ⟨.array [0, 1, 10, 12], 4, maxIters, 2, none, init, -1, dist⟩).map fun x =>
      ⟨x.iters, (List.range 4).map x.state.assign, (List.finRange 2).map fun c => x.state.cents c 0⟩

/-- Forgy draws the rows 1 and 3; the default `random` of the library, `kmeanspp` and `none` are refused. -/
example : showMedoids "forgy" "eucl" 0 = .ok ⟨0, [some 0, some 0, some 1, some 1], [1, 12]⟩ ∧
    showMedoids "forgy" "eucl" 10 = .ok ⟨1, [some 0, some 0, some 1, some 1], [1, 12]⟩ ∧
    showMedoids "random" "eucl" 10 = .error .throws ∧ showMedoids "kmeanspp" "eucl" 10 = .error .throws ∧
    showMedoids "none" "eucl" 10 = .error .throws := by
  decide +kernel

/-- Four rows in the plane. -/
def planeRows (r j : Nat) : ℝ := if r = 1 then 3 else if r = 3 ∧ j = 0 then 5 else 0

/-- **C89 is violated: the metric.**  On the rows (0, 0), (3, 3), (0, 0), (5, 0), with the taxicab distance requested,
the drawn medoids are (3, 3) and (5, 0); row 0 is put into the cluster of the first, which is farther away in that
metric (6 instead of 5). -/
theorem C89_violated_metric : ∃ res : Medoid.Result ℝ ℝ 2 2,
    medoids (realDist 1000) 1000 (oneCell ℝ) (counter ℝ) (fun _ _ => 0) (demoSched 0) demoSched demoSched (1 / 5)
      ⟨.array (rowsFrom planeRows 2 0 4), 4, 0, 2, none, "forgy", -1, "taxi"⟩ = .ok res ∧
    res.state.assign 0 = some 0 ∧
    realDist 1000 .taxi (matRows planeRows 0) (res.state.cents 1) <
      realDist 1000 .taxi (matRows planeRows 0) (res.state.cents 0) := by
  obtain ⟨res, y0, e, hst, t, tr, ⟨h0, h1⟩, hl, ht, -⟩ := (C89_call_partial (k := 2) (n := 2) (realDist 1000)
    (realDist_eucl_comm 1000) (fun x => realDist_self (by decide) x) 1000 (oneCell_ok ℝ) (counter ℝ) (fun _ _ => 0)
    (demoSched 0) demoSched demoSched (1 / 5) ⟨.array (rowsFrom planeRows 2 0 4), 4, 0, 2, none, "forgy", -1, "taxi"⟩
    planeRows none (by decide) (by decide) (by decide) (by decide) (by decide) (by decide) rfl rfl (counter_ok ℝ)
    (two_sched 0) two_sched two_sched).2 rfl (by simp) (fun l nodes h => by cases h)
    (tame_bounded 1000 5 (by norm_num) (by norm_num) fun r hr j => by
      show |planeRows r j.val| ≤ 5
      unfold planeRows; split_ifs <;> norm_num)
  obtain rfl : t = 0 := by
    have : t ≤ 0 := ht
    omega
  have hy : y0 0 = matRows planeRows 1 ∧ y0 1 = matRows planeRows 3 := by
    obtain ⟨r, -, q1, q2⟩ := hst 0
    obtain ⟨r', -, q1', q2'⟩ := hst 1
    have e1 : (outputs (counter ℝ).row 2 (counter ℝ).seed)[(0 : Fin 2).val]? = some 1 := rfl
    have e2 : (outputs (counter ℝ).row 2 (counter ℝ).seed)[(1 : Fin 2).val]? = some 3 := rfl
    rw [e1] at q1
    rw [e2] at q1'
    rw [q2, q2', ← Option.some.inj q1, ← Option.some.inj q1']
    exact ⟨rfl, rfl⟩
  have hs0 : res.state.cents = y0 := by rw [← h0, hl]; rfl
  have ha : (tr 0).assign = res.state.assign := by rw [hl]; rfl
  obtain ⟨c, hc, hn, -⟩ := h1 0 (by show (0 : Nat) < 4; decide)
  have hd : ∀ x y : Row ℝ 2, realDist 1000 .eucl x y = Real.sqrt ((x 0 - y 0) ^ 2 + (x 1 - y 1) ^ 2) := by
    intro x y
    unfold realDist
    rw [(Dist.C36_dispatch x y).1, Option.getD_some, Fin.sum_univ_two]
  have hcz : c = 0 := by
    by_contra hne
    have : c = 1 := by omega
    subst this
    have := hn 0
    simp only [hy.1, hy.2, hd] at this
    rw [Real.sqrt_le_sqrt_iff (by positivity)] at this
    simp [matRows, planeRows] at this
    norm_num at this
  refine ⟨res, e, by rw [← ha, hc, hcz], ?_⟩
  rw [hs0, hy.1, hy.2]
  unfold realDist
  rw [(Dist.C36_dispatch _ _).2.2.1, (Dist.C36_dispatch _ _).2.2.1]
  simp only [Option.getD_some, Fin.sum_univ_two]
  simp [matRows, planeRows]
  norm_num

end Knor.Driver
