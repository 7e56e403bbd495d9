import Verif.Lemmas.XmeansRun
import Verif.Props.Hclust

/-!
# X-means and g-means: C46, C71, C72, C73

All theorems quantify over the data, the metric, the number of threads, the interleaving of the workers
in every iteration of every round, the two first centroids, and over what the statistical criterion
decides in every round (`rej`, `dec`).
-/

namespace Knor.Xmeans

open Knor Knor.Par Knor.Spec Knor.Hclust Knor.Compact

variable {R D : Type _} {n : Nat}

/-! ## C46 -/

/-- The two sides of partition `p`. -/
def sides (s : St R n) (p : Nat) : Option (Nat × Nat) := (s.hc p).map fun nd => (nd.zero, nd.one)

/-- The splits of the partitions `rej` have been taken back: their rows, and only they, have returned;
the size of the partition is the sum of the sizes of its sides, which are empty now; all other sizes are
the same; every size is the number of rows; the partitions are no longer being split, the others
still are. -/
structure Restored (N : Nat) (rej : List Nat) (s s' : St R n) : Prop where
  back : ∀ p ∈ rej, ∀ z o, sides s p = some (z, o) → ∀ r, r < N →
    (s'.assign r = p ↔ s.assign r = z ∨ s.assign r = o)
  same : ∀ r, r < N → (∀ p ∈ rej, ∀ z o, sides s p = some (z, o) → s.assign r ≠ z ∧ s.assign r ≠ o) →
    s'.assign r = s.assign r
  sum : ∀ p ∈ rej, ∀ z o, sides s p = some (z, o) → ∃ a b : Int, s.counts[z]? = some a ∧
    s.counts[o]? = some b ∧ s'.counts[p]? = some (a + b) ∧ s'.counts[z]? = some 0 ∧ s'.counts[o]? = some 0
  others : ∀ i, i ∉ rej → (∀ p ∈ rej, ∀ z o, sides s p = some (z, o) → i ≠ z ∧ i ≠ o) →
    s'.counts[i]? = s.counts[i]?
  sizes : ∀ i, i < s'.counts.length → s'.counts[i]? = some (size N s'.assign i : Int)
  gone : ∀ p ∈ rej, sides s' p = none
  kept : ∀ p, p ∉ rej → sides s' p = sides s p

theorem sides_some {s : St R n} {p z o : Nat} (h : sides s p = some (z, o)) :
    ∃ nd, s.hc p = some nd ∧ nd.zero = z ∧ nd.one = o := by
  unfold sides at h
  cases hp : s.hc p with
  | none => rw [hp] at h; cases h
  | some nd =>
    rw [hp] at h
    simp only [Option.map_some, Option.some.injEq, Prod.mk.injEq] at h
    exact ⟨nd, rfl, h.1, h.2⟩

theorem Taken.restored {N M : Nat} {alg : Alg} {cl : Sparse R n} {s s' : St R n} {rej : List Nat}
    (h : Taken N alg cl s rej s') (hs : Sound N M s) (hk : ∀ p ∈ rej, ∃ nd, s.hc p = some nd) :
    Restored N rej s s' := by
  have hkid : ∀ i, Kid s rej i → ∃ p ∈ rej, ∃ z o, sides s p = some (z, o) ∧ (i = z ∨ i = o) := by
    rintro i ⟨p, nd, j, h1, h2, h3⟩
    exact ⟨p, h1, nd.zero, nd.one, by unfold sides; rw [h2]; rfl, mem_sides.1 ⟨j, h3⟩⟩
  refine ⟨?_, ?_, ?_, ?_, ?_, ?_, ?_⟩
  · intro p hp z o hz r hr
    obtain ⟨nd, h1, rfl, rfl⟩ := sides_some hz
    exact h.back hs hp h1 hr
  · intro r hr hno
    apply h.asg2 r hr
    intro hc
    obtain ⟨p, hp, z, o, h1, h2⟩ := hkid _ hc
    have := hno p hp z o h1
    tauto
  · intro p hp z o hz
    obtain ⟨nd, h1, rfl, rfl⟩ := sides_some hz
    refine ⟨_, _, hs.counts _ (hs.sideLt p nd 0 h1), hs.counts _ (hs.sideLt p nd 1 h1), ?_,
      h.cnt2 _ ⟨p, nd, 0, hp, h1, rfl⟩, h.cnt2 _ ⟨p, nd, 1, hp, h1, rfl⟩⟩
    rw [h.cnt1 p nd hp h1]
    push_cast
    rfl
  · intro i hi hno
    apply h.cnt3 i hi
    intro hc
    obtain ⟨p, hp, z, o, h1, h2⟩ := hkid _ hc
    have := hno p hp z o h1
    tauto
  · intro i hi
    exact h.counts hs hk (by rw [← hs.lenC, ← h.lenC]; exact hi)
  · intro p hp
    unfold sides
    rw [h.hc p, if_pos hp]; rfl
  · intro p hp
    unfold sides
    rw [h.hc p, if_neg hp]

/-- **C46** for x-means, in any consistent state: whatever the assignments, the partitions that are being
split, the means and the set of rejected splits (in any order), the decision restores the parents.
`Sound` says that ids are in range and distinct, that the rows of a partition are those on its two sides,
and that the sizes are right. -/
theorem C46_xmeans_restores_parent {N M : Nat} (cl : Sparse R n) (s : St R n) (hs : Sound N M s)
    (rej : List Nat) (hnd : rej.Nodup) (hk : ∀ p ∈ rej, (sides s p).isSome)
    (hcl : ∀ p ∈ rej, p < cl.nclust) : ∃ s', decideX cl rej s = .ok s' ∧ Restored N rej s s' := by
  have hk' : ∀ p ∈ rej, ∃ nd, s.hc p = some nd := by
    intro p hp
    have := hk p hp
    unfold sides at this
    rw [Option.isSome_map, Option.isSome_iff_exists] at this
    exact this
  obtain ⟨s', e, hT⟩ := decideX_ok hs hnd hk' hcl
  exact ⟨s', e, hT.restored hs hk'⟩

/-- **C46** for g-means, in any consistent state with partitions none of which is without rows. -/
theorem C46_gmeans_restores_parent {N M : Nat} (c : Cfg R D n) (hN : c.nrow = N) (cl : Sparse R n)
    (s : St R n) (hs : Sound N M s) (hne : s.keys ≠ [])
    (hpop : ∀ p, (sides s p).isSome → ∃ r, r < N ∧ s.part r = p)
    (rej : List Nat) (hnd : rej.Nodup) (hk : ∀ p ∈ rej, (sides s p).isSome)
    (hcl : ∀ p ∈ rej, p < cl.nclust) : ∃ s', decideG c cl rej s = .ok s' ∧ Restored N rej s s' := by
  have hk' : ∀ p ∈ rej, ∃ nd, s.hc p = some nd := by
    intro p hp
    have := hk p hp
    unfold sides at this
    rw [Option.isSome_map, Option.isSome_iff_exists] at this
    exact this
  obtain ⟨s', e, hT⟩ := decideG_ok hN hs hne
    (fun p nd hp => hpop p (by unfold sides; rw [hp]; rfl)) hnd hk' hcl
  exact ⟨s', e, hT.restored hs hk'⟩

/-- The states at the beginning of the rounds of a run: the number of rounds before, the partitions of
those rounds, and the state. -/
inductive Reached [Field R] [LE R] [DecidableLE R] [LT D] [DecidableLT D] (alg : Alg) (c : Cfg R D n)
    (it : HInit R n) : Nat → List Nat → XSt R n → Prop
  | start {s} : start c it = .ok s → Reached alg c it 0 [] s
  | next {t hist s s1 s2 s3 sched rej h4} : Reached alg c it t hist s → meanPhase c s = .ok s1 →
      (∀ i, Complete (Partition.effThreads c.reqThreads c.nrow)
        (Kmeans.threadRows c.nrow c.reqThreads) (sched i)) →
      iterate alg c sched s1 = .ok s2 → rej.Nodup → (∀ p ∈ rej, p ∈ s2.h.keys) →
      partitionDecision alg c rej s2 = .ok s3 → c.atCap s3.h = false → initSplits c s3.h = .ok h4 →
      h4.keys ≠ [] → Reached alg c it (t + 1) (hist ++ s.h.keys) { s3 with h := h4 }

/-- The decision function that rejects `rej` when the partitions are `ks`. -/
def only (ks rej : List Nat) : Nat → List Nat → List Nat := fun _ l => if l = ks then rej else []

theorem fine_only [Field R] [LinearOrder D] {c : Cfg R D n} (hs : Sane c) (hn : 0 < n) (hmin : 2 ≤ c.minSize)
    (hmi : 1 ≤ c.maxIters) (hbig : MeansWithin c.nrow c.data c.dist c.big)
    {sched : Nat → List Nat} (hc : ∀ i, Complete (Partition.effThreads c.reqThreads c.nrow)
      (Kmeans.threadRows c.nrow c.reqThreads) (sched i)) {ks rej : List Nat} (hnd : rej.Nodup)
    (hsub : ∀ p ∈ rej, p ∈ ks) : Fine c (fun _ => sched) (only ks rej) (hclustFloor c.kmax) := by
  refine ⟨hbig, hs.rows, hs.threads, hs.rowsLt, hn, fun _ => hc, ?_, ?_,
    (Hclust.sizes (c := c) hs.two hs.kLt).1, hmin, hmi⟩
  · intro t l _
    unfold only
    split
    · exact hnd
    · exact List.nodup_nil
  · intro t l _ p hp
    unfold only at hp
    split at hp
    · rename_i e; rw [e]; exact hsub p hp
    · cases hp

theorem only_self (ks rej : List Nat) (t : Nat) : only ks rej t ks = rej := if_pos rfl

/-- The mean of an entry counts only rows of partitions that are being split. -/
theorem num_hist [Field R] [LT D] {alg : Alg} {c : Cfg R D n} {K M t : Nat} {d : Int} {live : Finset Nat}
    {s s1 : XSt R n} (h : XBd alg c K M t d live s) (hm : Means c s s1) {i : Nat} (hi : s1.cl.num i ≠ 0) :
    s.cl.num i ≠ 0 ∨ i ∈ s.h.keys := by
  rw [hm.num i] at hi
  by_cases h0 : s.cl.num i = 0
  · right
    rw [h0, zero_add] at hi
    obtain ⟨r, hr, hw⟩ := Finset.exists_ne_zero_of_sum_ne_zero hi
    rw [Finset.mem_range] at hr
    unfold wt at hw
    split at hw
    · rename_i hcnt
      obtain ⟨h1, h2⟩ := hcnt
      rw [mem_keys' h.bd.wf]
      rcases h.bd.ready.rows r hr with ⟨h3, _⟩ | ⟨nd, h3, _⟩
      · rw [h.bd.wf.finInact _ h3] at h1; cases h1
      · exact ⟨nd, h2 ▸ h3⟩
    · exact absurd rfl hw
  · exact Or.inl h0

theorem Reached.inv [Field R] [LinearOrder R] [LinearOrder D] {alg : Alg} {c : Cfg R D n} {it : HInit R n}
    (hs : Sane c) (hn : 0 < n) (hmin : 2 ≤ c.minSize) (hmi : 1 ≤ c.maxIters)
    (hbig : MeansWithin c.nrow c.data c.dist c.big) (hit : Startable c it) {t : Nat} {hist : List Nat} {s : XSt R n}
    (h : Reached alg c it t hist s) : (alg = .g → t + 6 ≤ 3 * hclustFloor c.kmax) →
    ∃ d live, XBd alg c (hclustFloor c.kmax) c.maxNodes t d live s ∧
      ∀ i, s.cl.num i ≠ 0 → i ∈ hist := by
  have hz := Hclust.sizes (c := c) hs.two hs.kLt
  induction h with
  | @start s e =>
    intro _
    obtain ⟨s0, e0, hx, _⟩ := start_ok hbig hs.two hs.kLt hs.rows alg hit
    rw [e0] at e; cases e
    refine ⟨0, _, hx, ?_⟩
    intro i hi
    unfold Xmeans.start at e0
    cases hc0 : construct c Clusters.empty with
    | error e' => rw [hc0] at e0; cases e0
    | ok s1 =>
      rw [hc0] at e0
      simp only at e0
      cases hr0 : runHinit c it s1 with
      | error e' => rw [hr0] at e0; cases e0
      | ok s2 =>
        rw [hr0] at e0
        cases e0
        exact absurd rfl hi
  | @next t hist s s1 s2 s3 sched rej h4 _ e1 hc e2 hnd hsub e3 hcap e4 hk ih =>
    intro hg
    obtain ⟨d, live, hx, hnum⟩ := ih (fun ha => by have := hg ha; omega)
    have hf := fine_only hs hn hmin hmi hbig hc hnd hsub
    obtain ⟨s1', e1', m1, k1, hh⟩ := round_ok hf hx
    rw [e1'] at e1; cases e1
    rcases hh with ⟨_, e2'⟩ | ⟨h2, h3, d3, e2', hro, e3', hT, hA, _⟩
    · rw [e2'] at e2; cases e2
    · rw [e2'] at e2; cases e2
      rw [only_self] at e3'
      rw [e3'] at e3; cases e3
      obtain ⟨h4', e4', _, hgo⟩ := split_ok hf hA (fun ha => by have := hg ha; omega) (by
        have hcap' : ¬ c.atCap h3 = true := by
          change c.atCap h3 = false at hcap
          rw [hcap]; decide
        unfold Cfg.atCap at hcap'
        simp only [decide_eq_true_eq] at hcap'
        have := hz.1
        omega) s1.cl s1.loc m1.neat
      change initSplits c h3 = .ok h4 at e4
      rw [e4'] at e4; cases e4
      obtain ⟨_, live4, d4, hx4, _, _⟩ := hgo hk
      refine ⟨d4, live4, hx4, ?_⟩
      intro i hi
      rw [List.mem_append]
      rcases num_hist hx m1 hi with h | h
      · exact Or.inl (hnum i h)
      · exact Or.inr h

/-- **C46** in runs of x-means: in every round of every run the decision, whichever splits it takes
back, restores the parents. -/
theorem C46_xmeans_runs [Field R] [LinearOrder R] [LinearOrder D] (c : Cfg R D n) (it : HInit R n)
    (hs : Sane c) (hn : 0 < n) (hmin : 2 ≤ c.minSize) (hmi : 1 ≤ c.maxIters)
    (hbig : MeansWithin c.nrow c.data c.dist c.big) (hit : Startable c it) (t : Nat) (hist : List Nat)
    (s s1 s2 : XSt R n) (h : Reached .x c it t hist s) (e1 : meanPhase c s = .ok s1)
    (sched : Nat → List Nat) (hc : ∀ i, Complete (Partition.effThreads c.reqThreads c.nrow)
      (Kmeans.threadRows c.nrow c.reqThreads) (sched i)) (e2 : iterate .x c sched s1 = .ok s2)
    (rej : List Nat) (hnd : rej.Nodup) (hsub : ∀ p ∈ rej, p ∈ s2.h.keys) :
    ∃ s3, partitionDecision .x c rej s2 = .ok s3 ∧ Restored c.nrow rej s2.h s3.h := by
  obtain ⟨d, live, hx, _⟩ := h.inv hs hn hmin hmi hbig hit (by intro h; cases h)
  have hf := fine_only hs hn hmin hmi hbig hc hnd hsub
  obtain ⟨s1', e1', m1, k1, hh⟩ := round_ok hf hx
  rw [e1'] at e1; cases e1
  rcases hh with ⟨_, e2'⟩ | ⟨h2, h3, d3, e2', hro, e3', hT, hA, _⟩
  · rw [e2'] at e2; cases e2
  · rw [e2'] at e2; cases e2
    simp only [only_self] at e3' hT
    have hw2 := hro.wf hx.bd.wf
    exact ⟨_, e3', hT.restored (Sound.of hw2 hro.settled) fun p hp => (mem_keys' hw2).1 (hsub p hp)⟩

/-- **C46** in runs of g-means, partial: the same in the first `3 K - 6` rounds, where `K` is the largest
power of two that is at most `kmax`.  Missing: later rounds, which need not stay inside the buffers
(see C73). -/
theorem C46_gmeans_runs_partial [Field R] [LinearOrder R] [LinearOrder D] (c : Cfg R D n) (it : HInit R n)
    (hs : Sane c) (hn : 0 < n) (hmin : 2 ≤ c.minSize) (hmi : 1 ≤ c.maxIters)
    (hbig : MeansWithin c.nrow c.data c.dist c.big) (hit : Startable c it) (t : Nat) (hist : List Nat)
    (s s1 s2 : XSt R n) (h : Reached .g c it t hist s) (ht : t + 6 ≤ 3 * hclustFloor c.kmax)
    (e1 : meanPhase c s = .ok s1)
    (sched : Nat → List Nat) (hc : ∀ i, Complete (Partition.effThreads c.reqThreads c.nrow)
      (Kmeans.threadRows c.nrow c.reqThreads) (sched i)) (e2 : iterate .g c sched s1 = .ok s2)
    (rej : List Nat) (hnd : rej.Nodup) (hsub : ∀ p ∈ rej, p ∈ s2.h.keys) :
    ∃ s3, partitionDecision .g c rej s2 = .ok s3 ∧ Restored c.nrow rej s2.h s3.h := by
  obtain ⟨d, live, hx, _⟩ := h.inv hs hn hmin hmi hbig hit (fun _ => ht)
  have hf := fine_only hs hn hmin hmi hbig hc hnd hsub
  obtain ⟨s1', e1', m1, k1, hh⟩ := round_ok hf hx
  rw [e1'] at e1; cases e1
  rcases hh with ⟨_, e2'⟩ | ⟨h2, h3, d3, e2', hro, e3', hT, hA, _⟩
  · rw [e2'] at e2; cases e2
  · rw [e2'] at e2; cases e2
    simp only [only_self] at e3' hT
    have hw2 := hro.wf hx.bd.wf
    exact ⟨_, e3', hT.restored (Sound.of hw2 hro.settled) fun p hp => (mem_keys' hw2).1 (hsub p hp)⟩

/-- Run a witness that starts from rows `i` and `j`. -/
def lookX (alg : Alg) (xs : List ℚ) (kmax maxIters minSize i j fuel : Nat)
    (dec : Nat → List Nat → List Nat) : Res (Option Hclust.Seen) :=
  match run alg { demo xs kmax maxIters minSize with grow := alg = .g, big := 10000000000 } (.forgy i j) dec
      (fun _ _ => List.replicate xs.length 0) fuel with
  | .error e => .error e
  | .ok none => .ok none
  | .ok (some s) => .ok (some ⟨(List.range xs.length).map s.assign, s.counts,
      ((List.range 16).filter fun i => (s.final i).isSome).map fun i =>
        (i, ((s.final i).getD fun _ => 0) 0)⟩)

/-- The split of the first round is taken back: all rows are in cluster 0 again. -/
example : lookX .x [0, 1, 10, 11] 2 3 2 0 2 3 (fun _ l => l)
    = .ok (some ⟨[0, 0, 0, 0], [4, 0, 0, 0, 0, 0, 0], [(0, 11 / 2)]⟩) := by decide +kernel

example : lookX .g [0, 1, 10, 11] 2 3 2 0 2 3 (fun _ l => l)
    = .ok (some ⟨[0, 0, 0, 0], [4, 0, 0, 0, 0, 0, 0], [(0, 11 / 2)]⟩) := by decide +kernel

/-- In the second of three rounds one of two splits is taken back. -/
example : lookX .x [0, 1, 10, 11, 20, 21, 30, 31] 4 3 2 0 4 3 (fun t _ => if t = 1 then [1] else [])
    = .ok (some ⟨[1, 1, 1, 1, 5, 5, 6, 6], [0, 4, 0, 0, 0, 2, 2, 0, 0, 0, 0, 0, 0, 0, 0],
      [(1, 11 / 2), (5, 41 / 2), (6, 61 / 2)]⟩) := by decide +kernel

theorem complete_demoTop (xs : List ℚ) (h : 0 < xs.length) (hlt : xs.length < 4294967296) (k i m : Nat) :
    Complete (Partition.effThreads (demoTop xs k i m).reqThreads (demoTop xs k i m).nrow)
      (Kmeans.threadRows (demoTop xs k i m).nrow (demoTop xs k i m).reqThreads)
      (List.replicate xs.length 0) := by
  have h1 : Partition.effThreads (demoTop xs k i m).reqThreads (demoTop xs k i m).nrow = 1 := by
    show Partition.effThreads 1 xs.length = 1
    unfold Partition.effThreads
    simp
    omega
  have hsp := Kmeans.split_threadRows (N := xs.length) (nt := 1) h (by decide) hlt
  intro t ht
  have h2 : t = 0 := by omega
  subst h2
  have hl := hsp.perm.length_eq
  have he : Partition.effThreads 1 xs.length = 1 := h1
  rw [he] at hl
  show (Kmeans.threadRows xs.length 1 0).length ≤ _
  simp at hl
  simp [hl]

/-- The hypotheses of C46 are met: in the first round of a run on four rows, partition 0 is being split. -/
example : ∃ s s1 s2 : XSt ℚ 1, Reached .x (demoTop [0, 1, 10, 11] 2 3 2) (.forgy 0 2) 0 [] s ∧
    meanPhase (demoTop [0, 1, 10, 11] 2 3 2) s = .ok s1 ∧
    iterate .x (demoTop [0, 1, 10, 11] 2 3 2) (fun _ => List.replicate 4 0) s1 = .ok s2 ∧
    s2.h.keys ≠ [] ∧ Sound 4 7 s2.h := by
  have hs : Sane (demoTop [0, 1, 10, 11] 2 3 2) := ⟨by decide, by decide, by decide, by decide, by decide⟩
  obtain ⟨s, e, hx, hl⟩ := start_ok (c := demoTop [0, 1, 10, 11] 2 3 2) (fun r _ a i => WithTop.coe_lt_top _)
    hs.two hs.kLt hs.rows .x (it := .forgy 0 2) ⟨by decide, by decide⟩
  have hf := fine_only (ks := []) (rej := []) (sched := fun _ => List.replicate 4 0) hs (by decide) (by decide)
    (by decide) (fun r _ a i => WithTop.coe_lt_top _)
    (fun _ => complete_demoTop [0, 1, 10, 11] (by decide) (by decide) 2 3 2) List.nodup_nil (by simp)
  obtain ⟨s1, e1, m1, k1, hh⟩ := round_ok hf hx
  have hk : ∀ r, r < 4 → s.h.part r < s1.cl.nclust := by
    intro r hr
    rcases hx.bd.ready.rows r hr with ⟨h1, _⟩ | ⟨nd, h1, _⟩
    · rw [hx.home r hr]
      have := hl.low _ h1
      have := hl.room
      have := m1.mono
      omega
    · exact k1 _ nd h1
  rcases hh with ⟨⟨r, hr, h1⟩, _⟩ | ⟨h2, h3, d3, e2, hro, e3, hT, hA, hd3⟩
  · have := hk r hr
    omega
  · refine ⟨s, s1, _, .start e, e1, e2, ?_, ?_⟩
    · intro hh
      have := hx.bd.start.ne
      rw [← shape_keys hro.hsize hro.shape, show h2.keys = [] from hh] at this
      simp at this
    · exact Sound.of (hro.wf hx.bd.wf) hro.settled

/-! ## C71 -/

/-- **C71, partial.**  For every data set, metric, number of threads, schedule and pair of first
centroids, and whatever the criterion decides, x-means ends normally after at most 1.5 `kmax` rounds:
no assertion fails (in particular the one that no cluster is still active), nothing is thrown, no
memory outside the buffers is touched, all ids stay below the capacity; and in the result object the
sizes add up to the number of rows and are the histogram of the assignments.
Missing: `max_iters = 0` and `min_clust_size < 2` (see `C71_violated`). -/
theorem C71_xmeans_terminates_safely_partial [Field R] [LinearOrder R] [LinearOrder D] (c : Cfg R D n)
    (hs : Sane c) (hn : 0 < n) (hmin : 2 ≤ c.minSize) (hmi : 1 ≤ c.maxIters)
    (hbig : MeansWithin c.nrow c.data c.dist c.big)
    (it : HInit R n) (hit : Startable c it) (sched : Nat → Nat → List Nat)
    (hc : ∀ t i, Complete (Partition.effThreads c.reqThreads c.nrow)
      (Kmeans.threadRows c.nrow c.reqThreads) (sched t i))
    (dec : Nat → List Nat → List Nat) (hdec : ∀ t l, l.Nodup → (dec t l).Nodup ∧ ∀ p ∈ dec t l, p ∈ l)
    (fuel : Nat) (hfu : c.kmax + c.kmax / 2 ≤ fuel) :
    ∃ s, run .x c it dec sched fuel = .ok (some s) ∧
      (∀ r, r < c.nrow → s.assign r < c.maxNodes) ∧ (∀ i, (s.final i).isSome → i < c.maxNodes) ∧
      ∀ ids : List Nat, ids.Nodup → (∀ i, i ∈ ids ↔ (s.final i).isSome) →
        ids.length ≤ c.kmax + c.kmax / 2 + 1 ∧
        ∃ res, result c ids s = .ok res ∧ Conserved c.nrow res := by
  have hz := Hclust.sizes (c := c) hs.two hs.kLt
  obtain ⟨s, e, h⟩ := runX_ok (c := c) (sched := sched) (dec := dec)
    ⟨hbig, hs.rows, hs.threads, hs.rowsLt, hn, hc, fun t l hl => (hdec t l hl).1, fun t l hl => (hdec t l hl).2,
      hz.1, hmin, hmi⟩ hs.two hs.kLt hit hfu
  refine ⟨s, e, h.inRange, h.idLt, ?_⟩
  intro ids hnd hids
  refine ⟨?_, h.conserved hs hids⟩
  have := h.few ids hnd fun i hi => (hids i).1 hi
  simp only [Mode.bound, reduceCtorEq, if_false] at this
  omega

/-- The hypotheses of C71 hold for eight rows and a criterion that rejects the split of partition 1. -/
example : ∃ s, run .x (demoTop [0, 1, 10, 11, 20, 21, 30, 31] 4 3 2) (.forgy 0 4)
    (fun _ l => l.filter (· = 1)) (fun _ _ => List.replicate 8 0) 6 = .ok (some s) := by
  obtain ⟨s, e, _⟩ := C71_xmeans_terminates_safely_partial (demoTop [0, 1, 10, 11, 20, 21, 30, 31] 4 3 2)
    ⟨by decide, by decide, by decide, by decide, by decide⟩ (by decide) (by decide) (by decide)
    (fun r _ a i => WithTop.coe_lt_top _) (.forgy 0 4) ⟨by decide, by decide⟩ (fun _ _ => List.replicate 8 0)
    (fun _ _ => complete_demoTop [0, 1, 10, 11, 20, 21, 30, 31] (by decide) (by decide) 4 3 2)
    (fun _ l => l.filter (· = 1)) (by
      intro t l hl
      exact ⟨hl.filter _, fun p hp => List.mem_of_mem_filter hp⟩) 6 (by decide)
  exact ⟨s, e⟩

/-- The configuration of `lookX`. -/
def demoX (alg : Alg) (xs : List ℚ) (kmax maxIters minSize : Nat) : Cfg ℚ ℚ 1 :=
  { demo xs kmax maxIters minSize with grow := alg = .g, big := 10000000000 }

/-- What `lookX` looked at. -/
theorem lookX_some {alg : Alg} {xs : List ℚ} {kmax maxIters minSize i j fuel : Nat}
    {dec : Nat → List Nat → List Nat} {o : Hclust.Seen}
    (h : lookX alg xs kmax maxIters minSize i j fuel dec = .ok (some o)) :
    ∃ s, run alg (demoX alg xs kmax maxIters minSize) (.forgy i j) dec
      (fun _ _ => List.replicate xs.length 0) fuel = .ok (some s) ∧
      (List.range xs.length).map s.assign = o.assign ∧ s.counts = o.counts ∧
      (((List.range 16).filter fun i => (s.final i).isSome).map fun i =>
        (i, ((s.final i).getD fun _ => 0) 0)) = o.final := by
  unfold lookX at h
  cases hr : run alg (demoX alg xs kmax maxIters minSize) (.forgy i j) dec
      (fun _ _ => List.replicate xs.length 0) fuel with
  | error e => unfold demoX at hr; rw [hr] at h; cases h
  | ok q =>
    cases q with
    | none => unfold demoX at hr; rw [hr] at h; cases h
    | some s =>
      unfold demoX at hr
      rw [hr] at h
      simp only [Except.ok.injEq, Option.some.injEq] at h
      subst h
      exact ⟨s, rfl, rfl, rfl, rfl⟩

theorem lookX_error {alg : Alg} {xs : List ℚ} {kmax maxIters minSize i j fuel : Nat}
    {dec : Nat → List Nat → List Nat} {e : Fault}
    (h : lookX alg xs kmax maxIters minSize i j fuel dec = .error e) :
    run alg (demoX alg xs kmax maxIters minSize) (.forgy i j) dec
      (fun _ _ => List.replicate xs.length 0) fuel = .error e := by
  unfold lookX at h
  cases hr : run alg (demoX alg xs kmax maxIters minSize) (.forgy i j) dec
      (fun _ _ => List.replicate xs.length 0) fuel with
  | error e => unfold demoX at hr; rw [hr] at h; cases h; rfl
  | ok q => unfold demoX at hr; rw [hr] at h; cases q <;> cases h

/-- **C71 is violated** for `min_clust_size = 1`, as for hierarchical clustering: a cluster of one row is
neither recorded nor split, and the next round dereferences a null pointer. -/
theorem C71_violated : ¬ ∀ (c : Cfg ℚ ℚ 1) (it : HInit ℚ 1) (dec : Nat → List Nat → List Nat)
    (sched : Nat → Nat → List Nat) (fuel : Nat), Sane c → 1 ≤ c.maxIters → it ≠ .other →
    (∀ t l, l.Nodup → (dec t l).Nodup ∧ ∀ p ∈ dec t l, p ∈ l) →
    run .x c it dec sched fuel ≠ .error .ub := by
  intro h
  have hw : lookX .x [0, 10, 11] 2 3 1 0 1 10 (fun _ _ => []) = .error .ub := by decide +kernel
  exact h (demoX .x [0, 10, 11] 2 3 1) (.forgy 0 1) (fun _ _ => []) _ 10
    ⟨by decide, by decide, by decide, by decide, by decide⟩ (by decide) (by intro h; cases h)
    (by intro _ _ _; simp) (lookX_error hw)

/-! ## C72 -/

/-- **C72, partial.**  When x-means or g-means takes back the split of a partition whose number has not
been a partition in an earlier round, the centroid that it records is the mean of the rows that are
assigned to it afterwards.
Missing: numbers that have been a partition before (see `C72_xmeans_violated`, `C72_gmeans_violated`). -/
theorem C72_recorded_mean_partial [Field R] [LinearOrder R] [LinearOrder D] (alg : Alg) (c : Cfg R D n)
    (it : HInit R n) (hs : Sane c) (hn : 0 < n) (hmin : 2 ≤ c.minSize) (hmi : 1 ≤ c.maxIters)
    (hbig : MeansWithin c.nrow c.data c.dist c.big) (hit : Startable c it) (t : Nat) (hist : List Nat)
    (s s1 s2 : XSt R n) (h : Reached alg c it t hist s)
    (hg : alg = .g → t + 6 ≤ 3 * hclustFloor c.kmax) (e1 : meanPhase c s = .ok s1)
    (sched : Nat → List Nat) (hc : ∀ i, Complete (Partition.effThreads c.reqThreads c.nrow)
      (Kmeans.threadRows c.nrow c.reqThreads) (sched i)) (e2 : iterate alg c sched s1 = .ok s2)
    (rej : List Nat) (hnd : rej.Nodup) (hsub : ∀ p ∈ rej, p ∈ s2.h.keys) :
    ∃ s3, partitionDecision alg c rej s2 = .ok s3 ∧ ∀ p ∈ rej, p ∉ hist →
      s3.h.final p = some (meanOf c.nrow c.data s3.h.assign p) := by
  obtain ⟨d, live, hx, hnum⟩ := h.inv hs hn hmin hmi hbig hit hg
  have hf := fine_only hs hn hmin hmi hbig hc hnd hsub
  obtain ⟨s1', e1', m1, k1, hh⟩ := round_ok hf hx
  rw [e1'] at e1; cases e1
  rcases hh with ⟨_, e2'⟩ | ⟨h2, h3, d3, e2', hro, e3', hT, hA, _⟩
  · rw [e2'] at e2; cases e2
  rw [e2'] at e2; cases e2
  simp only [only_self] at e3' hT
  have hw2 := hro.wf hx.bd.wf
  have hso := Sound.of hw2 hro.settled
  refine ⟨_, e3', ?_⟩
  intro p hp hph
  show h3.final p = some (meanOf c.nrow c.data h3.assign p)
  rw [hT.fin p, if_pos hp]
  have hn0 : s.cl.num p = 0 := by
    by_contra hcon; exact hph (hnum p hcon)
  obtain ⟨nd, h2p⟩ := (mem_keys' hw2).1 (hsub p hp)
  obtain ⟨nd0, h0p⟩ := (Round.key hro p).1 ⟨nd, h2p⟩
  have hcnt : ∀ r, r < c.nrow → (Counts s.h p r ↔ h3.assign r = p) := by
    intro r hr
    rw [hT.back hso hp h2p hr, ← mem_sides]
    have h5 := hso.rows r hr p nd h2p
    rw [hro.part] at h5
    constructor
    · rintro ⟨_, h4⟩
      obtain ⟨j, hj⟩ := h5.1 h4
      exact ⟨j, hj.symm⟩
    · rintro ⟨j, hj⟩
      have h4 := h5.2 ⟨j, hj.symm⟩
      refine ⟨?_, h4⟩
      rw [← hx.home r hr, h4]
      exact hx.bd.wf.keyAct p nd0 ⟨h0p, by simp⟩
  have hw : ∑ r ∈ Finset.range c.nrow, wt s.h p r = (size c.nrow h3.assign p : Int) := by
    unfold size wt
    rw [Finset.card_filter]
    push_cast
    apply Finset.sum_congr rfl
    intro r hr
    rw [Finset.mem_range] at hr
    by_cases hc1 : Counts s.h p r
    · rw [if_pos hc1, if_pos ((hcnt r hr).1 hc1)]
    · rw [if_neg hc1, if_neg fun hh => hc1 ((hcnt r hr).2 hh)]
  have hv : ∀ x, ∑ r ∈ Finset.range c.nrow, vl c s.h p x r =
      ∑ r ∈ (Finset.range c.nrow).filter (fun r => h3.assign r = p), c.data r x := by
    intro x
    unfold vl
    rw [Finset.sum_filter]
    apply Finset.sum_congr rfl
    intro r hr
    rw [Finset.mem_range] at hr
    by_cases hc1 : Counts s.h p r
    · rw [if_pos hc1, if_pos ((hcnt r hr).1 hc1)]
    · rw [if_neg hc1, if_neg fun hh => hc1 ((hcnt r hr).2 hh)]
  have hnn := m1.num p
  rw [hn0, zero_add, hw] at hnn
  congr 1
  funext x
  rw [m1.fresh p hn0 x, hv x]
  unfold meanOf
  by_cases hz : size c.nrow h3.assign p = 0
  · rw [if_pos hz, if_neg (by omega)]
    unfold size at hz
    rw [Finset.card_eq_zero] at hz
    rw [hz]; simp
  · rw [if_neg hz]
    by_cases hone : s1.cl.num p > 1
    · rw [if_pos hone, hnn]; simp
    · rw [if_neg hone]
      have : size c.nrow h3.assign p = 1 := by omega
      rw [this]; simp

/-- A case in which the conclusion can be read off: the rejected first split of 0, 1, 10, 11 records 11/2. -/
example : lookX .x [0, 1, 10, 11] 2 3 2 1 3 3 (fun _ l => l)
    = .ok (some ⟨[0, 0, 0, 0], [4, 0, 0, 0, 0, 0, 0], [(0, 11 / 2)]⟩) := by decide +kernel

/-- The claim of C72 for the recorded centroids of clusters with rows at the end of a run. -/
def CentroidsRight (alg : Alg) : Prop :=
  ∀ (c : Cfg ℚ ℚ 1) (it : HInit ℚ 1) (dec : Nat → List Nat → List Nat) (sched : Nat → Nat → List Nat)
    (fuel : Nat) (s : St ℚ 1), Sane c → 2 ≤ c.minSize → 1 ≤ c.maxIters → it ≠ .other →
    (∀ t l, (dec t l).Nodup) → run alg c it dec sched fuel = .ok (some s) →
    ∀ i v, s.final i = some v → 0 < size c.nrow s.assign i → v = meanOf c.nrow c.data s.assign i

theorem final_of_list {s : St ℚ 1} {l : List (Nat × ℚ)} {i : Nat} {x : ℚ}
    (h : (((List.range 16).filter fun i => (s.final i).isSome).map fun i =>
        (i, ((s.final i).getD fun _ => 0) 0)) = l) (hm : (i, x) ∈ l) :
    ∃ v, s.final i = some v ∧ v 0 = x := by
  rw [← h, List.mem_map] at hm
  obtain ⟨j, hj, e⟩ := hm
  rw [List.mem_filter] at hj
  simp only [Prod.mk.injEq] at e
  obtain ⟨rfl, e⟩ := e
  obtain ⟨v, hv⟩ := Option.isSome_iff_exists.1 hj.2
  rw [hv] at e
  exact ⟨v, hv, e⟩

/-- The mean of a cluster only depends on the list of assignments. -/
theorem meanOf_of_list {data : Nat → Row ℚ 1} {a : Nat → Nat} {l : List Nat} {N : Nat}
    (h : (List.range N).map a = l) (i : Nat) :
    size N a i = size N (fun r => l.getD r 0) i ∧ meanOf N data a i = meanOf N data (fun r => l.getD r 0) i := by
  have key : ∀ r, r < N → (a r = i ↔ l.getD r 0 = i) := by
    intro r hr
    rw [← h]
    simp [List.getD, List.getElem?_range hr]
  exact ⟨size_congr key, meanOf_congr key⟩

/-- **C72 is violated** by x-means: number 0 is a partition in round 0 and again in round 3, where its
split is taken back.  The sums of round 0 are still in the accumulator, and the recorded centroid is
307/15 instead of 85/4.  (The Bayesian information criterion as computed by the program does reject
these two splits.) -/
theorem C72_xmeans_violated : ¬ CentroidsRight .x := by
  intro h
  have hw : lookX .x [21, 10, 19, 19, 20, 22, 22, 18, 29, 28, 14] 8 1 2 9 7 4
      (fun t _ => if t = 3 then [0, 7] else []) =
    .ok (some ⟨[0, 8, 7, 7, 0, 0, 0, 7, 3, 4, 9],
      [4, 0, 0, 1, 1, 0, 0, 3, 1, 1, 0, 0, 0, 0, 0, 0, 0, 0, 0, 0, 0, 0, 0, 0, 0, 0, 0, 0, 0, 0, 0],
      [(0, 307 / 15), (3, 29), (4, 28), (7, 56 / 3), (8, 10), (9, 14)]⟩) := by decide +kernel
  obtain ⟨s, e, h1, _, h3⟩ := lookX_some hw
  obtain ⟨v, hv, hv0⟩ := final_of_list h3 (i := 0) (x := 307 / 15) (by simp)
  obtain ⟨m1, m2⟩ := meanOf_of_list
    (data := (demoX .x [21, 10, 19, 19, 20, 22, 22, 18, 29, 28, 14] 8 1 2).data) h1 0
  have := h (demoX .x [21, 10, 19, 19, 20, 22, 22, 18, 29, 28, 14] 8 1 2) (.forgy 9 7) _ _ 4 s
    ⟨by decide, by decide, by decide, by decide, by decide⟩ (by decide) (by decide) (by intro h; cases h)
    (by intro t l; split <;> decide) e 0 v hv (by
      change 0 < size 11 s.assign 0
      rw [show size 11 s.assign 0 = _ from m1]
      decide +kernel)
  rw [this] at hv0
  change meanOf 11 _ s.assign 0 0 = _ at hv0
  rw [show meanOf 11 _ s.assign 0 = _ from m2] at hv0
  revert hv0
  decide +kernel

/-- **C72 is violated** by g-means in the same way: the recorded centroid of cluster 0, which has the rows
with values 0 and 1, is 1586 instead of 1/2. -/
theorem C72_gmeans_violated : ¬ CentroidsRight .g := by
  intro h
  have hw : lookX .g [0, 10000, 1000, 100, 1] 4 1 2 0 1 4 (fun t _ => if t = 3 then [0] else []) =
    .ok (some ⟨[0, 2, 4, 5, 0], [2, 0, 1, 0, 1, 1, 0, 0, 0, 0, 0, 0, 0, 0, 0],
      [(0, 1586), (2, 10000), (4, 1000), (5, 100)]⟩) := by decide +kernel
  obtain ⟨s, e, h1, _, h3⟩ := lookX_some hw
  obtain ⟨v, hv, hv0⟩ := final_of_list h3 (i := 0) (x := 1586) (by simp)
  obtain ⟨m1, m2⟩ := meanOf_of_list (data := (demoX .g [0, 10000, 1000, 100, 1] 4 1 2).data) h1 0
  have := h (demoX .g [0, 10000, 1000, 100, 1] 4 1 2) (.forgy 0 1) _ _ 4 s
    ⟨by decide, by decide, by decide, by decide, by decide⟩ (by decide) (by decide) (by intro h; cases h)
    (by intro t l; split <;> decide) e 0 v hv (by
      change 0 < size 5 s.assign 0
      rw [show size 5 s.assign 0 = _ from m1]
      decide +kernel)
  rw [this] at hv0
  change meanOf 5 _ s.assign 0 0 = _ at hv0
  rw [show meanOf 5 _ s.assign 0 = _ from m2] at hv0
  revert hv0
  decide +kernel

/-! ## C73 -/

/-- What the Anderson-Darling test decides in the witness below. -/
def decG : Nat → List Nat → List Nat :=
  fun t _ => if t = 2 then [3] else if t = 3 then [8] else if t = 5 then [0] else []

/-- **C73 is violated**: g-means reads outside the vector of partition means.  A row that was put into a
cluster with a number at or above `2 K - 1` (here 15) by a split in round 5 is looked up by that number
in round 6, before anything has made the vector longer.  (The decisions are those of the
Anderson-Darling test as computed by the program.) -/
theorem C73_violated : ¬ ∀ (c : Cfg ℚ ℚ 1) (it : HInit ℚ 1) (dec : Nat → List Nat → List Nat)
    (sched : Nat → Nat → List Nat) (fuel : Nat), Sane c → 2 ≤ c.minSize → 1 ≤ c.maxIters → it ≠ .other →
    (∀ t l, (dec t l).Nodup) → run .g c it dec sched fuel ≠ .error .ub := by
  intro h
  have hw : lookX .g [1000000, 33, 10020, 1000000032, -100, 1000000000, -999999992, 141, 10020, 41, 1008,
      1000000037, 43, 37, 1000010] 8 2 2 11 1 7 decG = .error .ub := by decide +kernel
  refine h (demoX .g [1000000, 33, 10020, 1000000032, -100, 1000000000, -999999992, 141, 10020, 41, 1008,
      1000000037, 43, 37, 1000010] 8 2 2) (.forgy 11 1) decG _ 7
    ⟨by decide, by decide, by decide, by decide, by decide⟩ (by decide) (by decide) (by intro h; cases h)
    ?_ (lookX_error hw)
  intro t l
  unfold decG
  split
  · decide
  · split
    · decide
    · split <;> decide

/-- **C73, partial.**  In the first `3 K - 6` rounds, where `K` is the largest power of two that is at
most `kmax`, nothing but the read of C73_violated can go wrong in g-means: no assertion fails and
nothing is thrown; and a run that ends within them has all rows in clusters below the capacity and
sizes that add up to the number of rows and are the histogram of the assignments.
Missing: that read, and later rounds. -/
theorem C73_gmeans_early_rounds_partial [Field R] [LinearOrder R] [LinearOrder D] (c : Cfg R D n)
    (hs : Sane c) (hn : 0 < n) (hmin : 2 ≤ c.minSize) (hmi : 1 ≤ c.maxIters)
    (hbig : MeansWithin c.nrow c.data c.dist c.big)
    (it : HInit R n) (hit : Startable c it) (sched : Nat → Nat → List Nat)
    (hc : ∀ t i, Complete (Partition.effThreads c.reqThreads c.nrow)
      (Kmeans.threadRows c.nrow c.reqThreads) (sched t i))
    (dec : Nat → List Nat → List Nat) (hdec : ∀ t l, l.Nodup → (dec t l).Nodup ∧ ∀ p ∈ dec t l, p ∈ l)
    (fuel : Nat) (hfu : fuel + 6 ≤ 3 * hclustFloor c.kmax) :
    run .g c it dec sched fuel ≠ .error .assertFail ∧ run .g c it dec sched fuel ≠ .error .throws ∧
    ∀ s, run .g c it dec sched fuel = .ok (some s) →
      (∀ r, r < c.nrow → s.assign r < c.maxNodes) ∧ (∀ i, (s.final i).isSome → i < c.maxNodes) ∧
      ∀ ids : List Nat, ids.Nodup → (∀ i, i ∈ ids ↔ (s.final i).isSome) →
        ∃ res, result c ids s = .ok res ∧ Conserved c.nrow res := by
  have hz := Hclust.sizes (c := c) hs.two hs.kLt
  rcases runG_ok (c := c) (sched := sched) (dec := dec)
    ⟨hbig, hs.rows, hs.threads, hs.rowsLt, hn, hc, fun t l hl => (hdec t l hl).1, fun t l hl => (hdec t l hl).2,
      hz.1, hmin, hmi⟩ hs.two hs.kLt hit hfu with e | e | ⟨s, e, h⟩
  · rw [e]
    exact ⟨nofun, nofun, nofun⟩
  · rw [e]
    exact ⟨nofun, nofun, nofun⟩
  · rw [e]
    refine ⟨nofun, nofun, ?_⟩
    intro s' hs'
    cases hs'
    exact ⟨h.inRange, h.idLt, fun ids hnd hids => h.conserved hs hids⟩

/-- A g-means run that ends within the bound, here 6 rounds for `kmax = 4`. -/
example : lookX .g [0, 1, 10, 11, 20, 21, 30, 31] 4 3 2 0 4 6 (fun t _ => if t = 1 then [1] else [])
    = .ok (some ⟨[1, 1, 1, 1, 4, 3, 0, 7], [1, 4, 0, 1, 1, 0, 0, 1, 0, 0, 0, 0, 0, 0, 0],
      [(0, 30), (1, 11 / 2), (3, 21), (4, 20), (7, 31)]⟩) := by decide +kernel

end Knor.Xmeans
