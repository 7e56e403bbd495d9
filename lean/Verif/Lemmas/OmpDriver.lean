import Verif.Spec.OmpCall
import Verif.Props.Omp
import Verif.Props.Driver
import Verif.Props.PrunedDriver

namespace Knor.Driver

open Knor Knor.Spec Knor.Io Knor.Partition Knor.Par Knor.Init

variable {R S B : Type _} {k n : Nat}

theorem flatRow_rowsFrom [Zero R] (m : Nat → Nat → R) {N r : Nat} (hr : r < N) :
    flatRow (n := n) (rowsFrom m n 0 N) r = matRows m r := by
  funext j
  exact getD_rowsFrom m hr j

theorem complete_threads {N : Nat} (hn : 0 < N) (hlt : N < 4294967296) :
    Complete (effThreads 1 N) (Kmeans.threadRows N 1) (List.replicate N 0) := by
  intro t ht
  have e1 : effThreads 1 N = 1 := by unfold effThreads; omega
  rw [e1] at ht
  obtain rfl : t = 0 := by omega
  have hp := (Kmeans.split_threadRows (N := N) (nt := 1) hn (by omega) hlt).perm
  rw [e1] at hp
  simp only [List.range_one, List.flatMap_cons, List.flatMap_nil, List.append_nil] at hp
  rw [hp.length_eq]
  simp

theorem complete_tasks {N : Nat} (hn : 0 < N) (hlt : N + 8192 < 4294967296) :
    Complete (effThreads 1 N) (Prune.taskRows N 1) (List.replicate N 0) := by
  intro t ht
  have e1 : effThreads 1 N = 1 := by unfold effThreads; omega
  rw [e1] at ht
  obtain rfl : t = 0 := by omega
  have hp := (Prune.split_taskRows (N := N) (nt := 1) hn (by omega) hlt).perm
  rw [e1] at hp
  simp only [List.range_one, List.flatMap_cons, List.flatMap_nil, List.append_nil] at hp
  rw [hp.length_eq]
  simp

/-- The state after the initialisation. -/
theorem ompInit_ok [Field R] [LinearOrder R] [IsStrictOrderedRing R] (dist : Row R n → Row R n → R) (big : R)
    (rng : Rng R S k) (data data' : Nat → Row R n) (N T : Nat) (hdata : ∀ r, r < N → data r = data' r)
    (hk : 0 < k) (hn : 0 < N) (hlt : N < 4294967296) (hrng : RngOk rng N)
    (ko : Nat → Nat → Nat) (hko : ∀ i r, r < N → ko i r < T) (ks : Nat → List Nat)
    (hks : ∀ i, Complete T (Omp.rows N T (ko i)) (ks i))
    (it : InitT) (hpp : it = .plusplus → Seedable dist big data' N)
    (given : Option (Fin k → Row R n)) (gv : Fin k → Row R n) (hg : it = .none → given = some gv) :
    ∃ s, Omp.initState dist big data N T ko ks (ompStart rng gv it) = .ok s ∧
      StartsAt it dist data' N rng given s.cltrs.means ∧
      (it = .plusplus → ∀ r, r < N → dist (data' r) (s.cltrs.means ⟨0, hk⟩) < big) := by
  have hks' : ∀ i : Nat, Complete (effThreads 1 N) (Kmeans.threadRows N 1) ((fun _ => List.replicate N 0) i) :=
    fun _ => complete_threads hn hlt
  by_cases hnone : it = .none
  · subst hnone
    refine ⟨_, rfl, ⟨fun g h => ?_, fun h => ?_⟩, fun h => by cases h⟩
    · rw [hg rfl] at h
      rw [← Option.some.inj h]
      rfl
    · rw [hg rfl] at h
      cases h
  · obtain ⟨c0, s, e0, es, hst⟩ := runInit_ok dist big rng data data' N 1 hdata hk hn (by omega) hlt hrng
      (fun _ => List.replicate N 0) hks' it hpp none
    obtain ⟨c1, e1, h1, -⟩ := construct_ok (R := R) (k := k) (n := n) hk it none
    rw [e0] at e1
    obtain rfl := Except.ok.inj e1
    obtain rfl := h1 hnone
    have hst' : StartsAt it dist data' N rng given s.cltrs.means := by
      cases it with
      | none => exact absurd rfl hnone
      | _ => exact hst
    refine ⟨s, ?_, hst', fun h r hr => ?_⟩
    · rw [← es]
      unfold runInit ompStart
      cases it with
      | none => exact absurd rfl hnone
      | forgy =>
        simp only [Omp.initState]
        unfold Init.forgy
        rw [Omp.forgyLoop_eq rng.row (by omega) hlt hrng.row]
      | random =>
        simp only [Omp.initState]
        rw [Omp.random_eq rng.clust (by omega) hlt]
      | plusplus =>
        simp only [Omp.initState]
        rw [Omp.kpp_eq (nt := 1) (sched' := fun _ => List.replicate N 0) (by omega) hlt hko hks
          (Kmeans.split_threadRows hn (by omega) hlt) hks' (hrng.row _)]
        cases Init.kpp dist data N 1 (effThreads 1 N) (Kmeans.threadRows N 1) (fun _ => List.replicate N 0)
          (rng.row rng.seed).1 (fun i => (rng.unit (skip rng.unit i (rng.row rng.seed).2)).1)
          ⟨Clusters.empty, fun _ => ⟨big, none⟩⟩ <;> rfl
    · subst h
      have := (hst' ⟨0, hk⟩).1 rfl
      rw [this]
      exact (hpp rfl).lt r _ hr (hrng.row _)

/-- The checks let a call with good names pass. -/
theorem ompChecks_ok [Zero R] (a : OmpCall R) (given : Option (Nat → Nat → R))
    (hgiven : a.centers = given.map fun g => rowsFrom g n 0 k) (hk : 2 ≤ k) (hkN : k ≤ a.nrow) (it : InitT)
    (met : Dist.Metric) (hi : getInit a.init = .ok it) (hm : ompMetric a.dist = .ok met)
    (hnone : it = .none → given.isSome) :
    ∃ gv : Fin k → Row R n, ompChecks a = .ok (met, it, gv) ∧ (it = .none → givenCents given = some gv) := by
  unfold ompChecks
  rw [if_neg (by omega)]
  by_cases hin : a.init = "none"
  · have hit : it = .none := by
      rw [hin] at hi
      exact (Except.ok.inj hi).symm
    cases given with
    | none => exact absurd (hnone hit) (by simp)
    | some g =>
      refine ⟨fun c => flatRow (rowsFrom g n 0 k) c.val, ?_, fun _ => ?_⟩
      · unfold ompGiven
        rw [if_pos hin, hgiven, Option.map_some]
        dsimp only
        rw [if_neg (by rw [length_rowsFrom]; omega)]
        dsimp only
        rw [hm]
        dsimp only
        rw [hi]
      · unfold givenCents
        rw [Option.map_some]
        congr 1
        funext c
        exact (flatRow_rowsFrom g c.isLt).symm
  · refine ⟨fun _ _ => 0, ?_, fun h => ?_⟩
    · unfold ompGiven
      rw [if_neg hin]
      dsimp only
      rw [hm]
      dsimp only
      rw [hi]
    · subst h
      have := (getInit_ok a.init .none).1 hi
      simp at this
      exact absurd this hin

/-- They refuse a number of clusters out of range and other names. -/
theorem ompChecks_refused [Zero R] (a : OmpCall R) :
    ((k < 2 ∨ a.nrow < k) → ompChecks (k := k) (n := n) a = .error .throws) ∧
    ((∀ l, a.centers = some l → k * n ≤ l.length) → (a.init = "none" → a.centers.isSome) →
      (a.dist ∉ ["eucl", "cos"] ∨ a.init ∉ ["random", "forgy", "kmeanspp", "none"]) →
      ompChecks (k := k) (n := n) a = .error .throws) := by
  constructor
  · intro h
    unfold ompChecks
    rw [if_pos (by omega)]
  · intro hl hs hbad
    unfold ompChecks
    split
    · rfl
    have hgv : ∃ gv : Fin k → Row R n, ompGiven a.init a.centers = .ok gv := by
      unfold ompGiven
      split
      · rename_i hin
        cases hc : a.centers with
        | none => have := hs hin; rw [hc] at this; cases this
        | some l =>
          dsimp only
          rw [if_neg (by have := hl l hc; omega)]
          exact ⟨_, rfl⟩
      · exact ⟨_, rfl⟩
    obtain ⟨gv, e⟩ := hgv
    rw [e]
    dsimp only
    by_cases hd : a.dist ∈ ["eucl", "cos"]
    · have hi := hbad.resolve_left (fun h => h hd)
      have : getInit a.init = .error .throws := by
        simp only [List.mem_cons, List.not_mem_nil, or_false, not_or] at hi
        simp [getInit, hi]
      rw [this]
      split <;> simp_all
      rename_i x hx
      unfold ompMetric at hx
      split at hx
      · cases hx
      · split at hx
        · cases hx
        · exact (Except.error.inj hx).symm
    · have : ompMetric a.dist = .error .throws := by
        simp only [List.mem_cons, List.not_mem_nil, or_false, not_or] at hd
        simp [ompMetric, hd]
      rw [this]

/-! ### Reports -/

theorem showsPartition_of [Field R] {N : Nat} {data : Nat → Row R n} {res : Prune.Result R R k n}
    {rep : Omp.Report R k n} (he : Omp.reportP res = rep) (h : IsPartition N data res) : ShowsPartition N data rep := by
  subst he
  exact ⟨h.assigned, h.sizes, h.means⟩

theorem lloydReportAnyTie_of [Field R] [LinearOrder R] {dist : Row R n → Row R n → R} {N : Nat}
    {data : Nat → Row R n} {c0 : Fin k → Row R n} {tol : R} {M : Nat} {res : Prune.Result R R k n}
    {rep : Omp.Report R k n} (he : Omp.reportP res = rep) (h : LloydResultAnyTie dist N data c0 tol M res) :
    LloydReportAnyTie dist N data c0 tol M rep := by
  subst he
  obtain ⟨m, tr, h1, h2, h3, h4, h5, h6, h7, h8⟩ := h
  exact ⟨m, tr, h1, h2, h3, ⟨h6, h7, h8⟩, h4, h5⟩

/-- A budget of one is used by the pruned variant. -/
theorem runP_one [Field R] [LinearOrder R]
    {dist eucl : Row R n → Row R n → R} {big : R} {data : Nat → Row R n} {N T : Nat}
    {owner : Nat → Nat → Nat} {tol : R} {sched : Nat → List Nat} (s : Prune.PState R R k n) :
    Omp.runP dist eucl big data N T owner tol 1 sched s = Omp.runP dist eucl big data N T owner tol 2 sched s := by
  unfold Omp.runP
  rw [if_pos (by omega), if_pos (by omega)]
  cases Omp.emStepP dist eucl big data N T (Omp.rows N T (owner 1)) true (sched 1) s with
  | error e => rfl
  | ok s1 =>
    dsimp only
    rw [Omp.loopP, Omp.loopP, if_neg (by omega), if_neg (by omega)]

end Knor.Driver
