import Verif.Props.Bisect
import Verif.Lemmas.HierCause

/-!
# Property C94: hierarchical clustering leaves large clusters only when there are many clusters
-/

namespace Knor.Hclust

open Knor Knor.Par Knor.Spec Knor.Compact

variable {R D : Type _} {n : Nat}

theorem result_k [Zero R] {c : Cfg R D n} {ids : List Nat} {s : St R n} {res : Result R n}
    (e : result c ids s = .ok res) : res.k = ids.length := by
  unfold result hierResult at e
  split at e
  · cases e
  · dsimp only at e
    split at e
    · cases e
    · cases e
      simp

theorem pow_le_floor {e k : Nat} (h : 2 ^ (e + 1) ≤ k) : 2 * 2 ^ e ≤ hclustFloor k := by
  have hk : k ≠ 0 := by
    have := Nat.two_pow_pos (e + 1)
    omega
  have h1 : e + 1 ≤ Nat.log2 k := (Nat.le_log2 hk).2 h
  have h2 : 2 ^ (e + 1) ≤ 2 ^ Nat.log2 k := Nat.pow_le_pow_right (by omega) h1
  rw [Nat.pow_succ, Nat.mul_comm] at h2
  exact h2

/-- **C94, partial.**  If a cluster that hierarchical clustering returns has at least `min_clust_size` rows, then the
number of centroids that are returned exceeds half of every power of two up to `kmax`, and by at least 2.
Missing: that the number of clusters reaches the power of two (see `C94_violated`), and the settings that are missing
in C45. -/
theorem C94_large_clusters_remain_only_among_many_partial [Field R] [LinearOrder R] [LinearOrder D] (c : Cfg R D n)
    (hs : Sane c) (hmin : 2 ≤ c.minSize) (hmi : 1 ≤ c.maxIters)
    (hbig : MeansWithin c.nrow c.data c.dist c.big)
    (it : HInit R n) (hit : Startable c it) (sched : Nat → Nat → List Nat)
    (hc : ∀ t i, Complete (Partition.effThreads c.reqThreads c.nrow)
      (Kmeans.threadRows c.nrow c.reqThreads) (sched t i)) :
    ∃ s, run c it sched (c.kmax + c.kmax / 2) = .ok (some s) ∧
      ∀ ids : List Nat, (∀ i, i ∈ ids ↔ (s.final i).isSome) →
        ∃ res, result c ids s = .ok res ∧ ∀ r, r < c.nrow →
          c.minSize ≤ ((Finset.range c.nrow).filter fun q =>
            res.assignments.getD q 0 = res.assignments.getD r 0).card →
          ∀ e, 2 ^ (e + 1) ≤ c.kmax → 2 ^ e + 2 ≤ res.k := by
  obtain ⟨s, e, h⟩ := run_ok hbig hs.rows hs.threads hs.rowsLt hs.two hs.kLt hmin hmi hit hc
    (Nat.le_refl _)
  refine ⟨s, e, fun ids hids => ?_⟩
  obtain ⟨res, e2, -⟩ := h.conserved hs hids
  refine ⟨res, e2, fun r hr hsz x hx => ?_⟩
  rw [result_members h hs e2 hr] at hsz
  obtain ⟨m0, m1, hm⟩ : ∃ m0 m1, startCents c it = some (m0, m1) := by
    cases it with
    | forgy i j => exact ⟨_, _, rfl⟩
    | given a b => exact ⟨_, _, rfl⟩
    | other => exact hit.elim
  have h1 := run_cause hbig hs.rows hs.threads hs.rowsLt hs.two hs.kLt hmin hmi hit hm hc e hids _ (h.named r hr) hsz
  have h2 := pow_le_floor hx
  rw [result_k e2]
  omega

/-- The hypotheses hold for nine rows and `kmax = 8`. -/
example : ∃ s, run (demoTop [0, 1, 2, 3, 4, 5, 6, 7, 100] 8 10 2) (.forgy 0 8) (fun _ _ => List.replicate 9 0) 12
    = .ok (some s) := by
  obtain ⟨s, e, _⟩ := C94_large_clusters_remain_only_among_many_partial (demoTop [0, 1, 2, 3, 4, 5, 6, 7, 100] 8 10 2)
    ⟨by decide, by decide, by decide, by decide, by decide⟩ (by decide) (by decide)
    (fun r _ a i => WithTop.coe_lt_top _) (.forgy 0 8) ⟨by decide, by decide⟩ (fun _ _ => List.replicate 9 0)
    (by
      intro t i u hu
      have hu' : u < 1 := hu
      have : u = 0 := by omega
      subst this
      decide +kernel)
  exact ⟨s, e⟩

/-- Nine rows, `kmax = 8`: seven clusters, two of which have two rows and could be split. -/
theorem nine_rows : lookResult [0, 1, 2, 3, 4, 5, 6, 7, 100] 8 10 2 0 8 12 [1, 2, 6, 7, 8, 9, 10]
    = .ok (some ⟨[0, 4, 5, 6, 2, 2, 3, 3, 1], [1, 1, 2, 2, 1, 1, 1], [0, 100, 9 / 2, 13 / 2, 1, 2, 3], 7⟩) := by
  decide +kernel

end Knor.Hclust

namespace Knor.Driver

open Knor Knor.Spec Knor.Io Knor.Partition Knor.Par Knor.Init Knor.Hclust Knor.Compact

variable {R S B : Type _} {n : Nat}

/-- **C94, for calls, partial.**  If a cluster that a call returns has at least `min_clust_size` rows, then the number of
centroids that are returned exceeds half of every power of two up to `kmax`, and by at least 2.
Missing: see `C94_violated`. -/
theorem C94_call_partial [Field R] [LinearOrder R] (dist : Dist.Metric → Row R n → Row R n → R) (big : R)
    (c : Codec R B) (rng : Rng R S 2) (order : St R n → List Nat) (ho : Enumerates order)
    (sched : Nat → Nat → List Nat) (fuel kmax minSize : Nat) (a : Call R B)
    (m : Nat → Nat → R) (given : Option (Nat → Nat → R)) (h : HierReady n c rng kmax a m given)
    (hc : ∀ t i, Complete (effThreads a.nthreads a.nrow) (Kmeans.threadRows a.nrow a.nthreads) (sched t i))
    (bind : Bool) (it : InitT) (met : Dist.Metric) (hi : getInit a.init = .ok it) (hd : getDist a.dist = .ok met)
    (hk : 2 ≤ kmax) (hw : MeansWithin a.nrow (matRows m) (dist met) big)
    (hg : ∀ g, it = .none → given = some g → ∀ r, r < a.nrow → ∀ i, i < 2 → dist met (matRows m r) (matRows g i) < big)
    (hmin : 2 ≤ minSize) (hmi : 1 ≤ a.maxIters) (res : Result R n)
    (e : hclust bind dist big c rng order sched fuel kmax minSize a = .ok (some res)) (r : Nat) (hr : r < a.nrow)
    (hl : minSize ≤ ((Finset.range a.nrow).filter fun q =>
      res.assignments.getD q 0 = res.assignments.getD r 0).card) (x : Nat) (hx : 2 ^ (x + 1) ≤ kmax) :
    2 ^ x + 2 ≤ res.k := by
  obtain ⟨cfg, hin, s, m0, m1, e1, e4, e5, e6, e7, e3, hdata, hs, hwc, hst, hm, hsa, hcc, er, hres⟩ :=
    hclust_ran h hc hi hd hk hw hg e
  have hfin : Finished .h cfg s := run_finished hwc hs.rows hs.threads hs.rowsLt hs.two hs.kLt
    (by rw [e5]; exact hmin) (by rw [e4]; exact hmi) hst hcc er
  rw [← e1] at hr hl
  rw [result_members hfin hs hres hr] at hl
  have h1 := run_cause hwc hs.rows hs.threads hs.rowsLt hs.two hs.kLt (by rw [e5]; exact hmin)
    (by rw [e4]; exact hmi) hst hm hcc er (ho.of hfin).2 _ (hfin.named r hr) (by rw [e5]; exact hl)
  have h2 := pow_le_floor hx
  rw [e3] at h1
  rw [result_k hres]
  omega

/-- The nine rows. -/
def nineRows (r _ : Nat) : ℚ := [0, 1, 2, 3, 4, 5, 6, 7, 100].getD r 0

/-- Centres at 0 and 100. -/
def farCents (i _ : Nat) : ℚ := [0, 100].getD i 0

/-- The call on the nine rows. -/
def nineCall : Call ℚ ℚ := ⟨.array [0, 1, 2, 3, 4, 5, 6, 7, 100], 9, 10, 1, some [0, 100], "none", -1, "taxi"⟩

theorem nine_ready : HierReady 1 (oneCell ℚ) (counter ℚ) 8 nineCall nineRows (some farCents) :=
  ⟨oneCell_ok ℚ, by decide, by decide, by decide, by decide, by decide, rfl, rfl,
    ⟨fun s => lt_of_lt_of_le ((counter_ok ℚ).1 s) (by decide), (counter_ok ℚ).2⟩, by decide⟩

theorem nine_within : MeansWithin 9 (matRows nineRows : Nat → Row ℚ 1) Kmeans.demoDist 1000 ∧
    ∀ r, r < 9 → ∀ i, i < 2 → Kmeans.demoDist (matRows nineRows r : Row ℚ 1) (matRows farCents i) < 1000 := by
  have hrow : ∀ r, r < 9 → |nineRows r 0| ≤ 100 := by decide +kernel
  constructor
  · intro r hr b i
    have h2 := abs_meanOf_le (R := ℚ) (n := 1) (X := 100) (by norm_num) (N := 9) (data := matRows nineRows)
      (fun r hr j => hrow r hr) b i 0
    rw [abs_le] at h2
    have h3 := abs_le.1 (hrow r hr)
    have h4 : (matRows nineRows r : Row ℚ 1) 0 = nineRows r 0 := rfl
    unfold Kmeans.demoDist
    rw [h4]
    split <;> linarith [h2.1, h2.2, h3.1, h3.2]
  · decide +kernel

theorem nine_sched (t i : Nat) : Complete (effThreads 1 9) (Kmeans.threadRows 9 1) ((fun _ _ => List.replicate 9 0) t i) := by
  intro u hu
  have : u = 0 := by
    have : effThreads 1 9 = 1 := by decide
    omega
  subst this
  show (Kmeans.threadRows 9 1 0).length ≤ List.count 0 (List.replicate 9 0)
  decide +kernel

/-- What the call on the nine rows returns: seven clusters, two of which have two rows. -/
def nineSeen : Option Compact.Seen :=
  match hclust (n := 1) true (fun _ => Kmeans.demoDist) 1000 (oneCell ℚ) (counter ℚ) increasing
    (fun _ _ => List.replicate 9 0) 12 8 2 nineCall with
  | .ok (some r) => some ⟨r.assignments, r.counts, (List.range r.k).map fun i => r.centroids i 0, r.k⟩
  | _ => none

theorem nine_seen : nineSeen
    = some ⟨[0, 4, 5, 6, 2, 2, 3, 3, 1], [1, 1, 2, 2, 1, 1, 1], [0, 100, 9 / 2, 13 / 2, 1, 2, 3], 7⟩ := by
  decide +kernel

theorem nine_res : ∃ res, hclust (n := 1) true (fun _ => Kmeans.demoDist) 1000 (oneCell ℚ) (counter ℚ) increasing
    (fun _ _ => List.replicate 9 0) 12 8 2 nineCall = .ok (some res) ∧
    res.assignments = [0, 4, 5, 6, 2, 2, 3, 3, 1] ∧ res.k = 7 := by
  have h := nine_seen
  unfold nineSeen at h
  split at h
  · rename_i r e
    simp only [Option.some.injEq, Compact.Seen.mk.injEq] at h
    exact ⟨r, e, h.1, h.2.2.2⟩
  · cases h

/-- The call on the nine rows meets the hypotheses of `C94_call_partial`: it must return at least 6 centroids, and
returns 7. -/
example : ∃ res : Result ℚ 1, hclust (n := 1) true (fun _ => Kmeans.demoDist) 1000 (oneCell ℚ) (counter ℚ) increasing
    (fun _ _ => List.replicate 9 0) 12 8 2 nineCall = .ok (some res) ∧ 2 ^ 2 + 2 ≤ res.k := by
  obtain ⟨res, e, ha, _⟩ := nine_res
  refine ⟨res, e, C94_call_partial (fun _ => Kmeans.demoDist) 1000 (oneCell ℚ) (counter ℚ) increasing
    enumerates_increasing (fun _ _ => List.replicate 9 0) 12 8 2 nineCall nineRows (some farCents) nine_ready nine_sched
    true .none .taxi rfl rfl (by decide) nine_within.1 ?_ (by decide) (by decide) res e 4 (by decide) ?_ 2 (by decide)⟩
  · rintro g - hg
    cases hg
    exact nine_within.2
  · rw [ha]
    decide

/-- **C94 is violated** for nine rows and `kmax = 8`: the call returns seven centroids, although two clusters have two
rows and the smallest size is 2. -/
theorem C94_violated : ¬ ∀ (m : Nat → Nat → ℚ) (given : Option (Nat → Nat → ℚ)) (order : St ℚ 1 → List Nat)
    (sched : Nat → Nat → List Nat) (fuel kmax minSize : Nat) (a : Call ℚ ℚ),
    HierReady 1 (oneCell ℚ) (counter ℚ) kmax a m given → Enumerates order →
    (∀ t i, Complete (effThreads a.nthreads a.nrow) (Kmeans.threadRows a.nrow a.nthreads) (sched t i)) →
    MeansWithin a.nrow (matRows m : Nat → Row ℚ 1) Kmeans.demoDist 1000 → 2 ≤ kmax → 2 ≤ minSize → 1 ≤ a.maxIters →
    ∀ res, hclust true (fun _ => Kmeans.demoDist) 1000 (oneCell ℚ) (counter ℚ) order sched fuel kmax minSize a
      = .ok (some res) →
    ∀ r, r < a.nrow → minSize ≤ ((Finset.range a.nrow).filter fun q =>
      res.assignments.getD q 0 = res.assignments.getD r 0).card → ∀ x, 2 ^ x ≤ kmax → 2 ^ x ≤ res.k := by
  intro h
  obtain ⟨res, e, ha, hk⟩ := nine_res
  have := h nineRows (some farCents) increasing (fun _ _ => List.replicate 9 0) 12 8 2 nineCall nine_ready
    enumerates_increasing nine_sched nine_within.1 (by decide) (by decide) (by decide) res e 4 (by decide)
    (by rw [ha]; decide) 3 (by decide)
  rw [hk] at this
  exact absurd this (by decide)

end Knor.Driver
