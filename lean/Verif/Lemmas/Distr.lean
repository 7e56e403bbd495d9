import Verif.Model.Distr
import Verif.Lemmas.PruneRun
import Verif.Lemmas.Kmeans

namespace Knor.Distr

open Knor Knor.Par Knor.Partition Knor.Spec

variable {R D α : Type _} {k n : Nat}

/-! ### Ranks -/

theorem eachRank_ok {f : Nat → Res α} {np : Nat} {d : Nat → α}
    (h : ∀ p, p < np → ∃ x, f p = .ok x) :
    ∃ m, eachRank f np d = .ok m ∧ ∀ p, p < np → f p = .ok (m p) := by
  induction np with
  | zero => exact ⟨d, rfl, fun p hp => by omega⟩
  | succ np ih =>
    obtain ⟨m, e, hm⟩ := ih fun p hp => h p (by omega)
    obtain ⟨x, hx⟩ := h np (by omega)
    refine ⟨Function.update m np x, by rw [eachRank, e]; simp only [hx], ?_⟩
    intro p hp
    by_cases hpn : p = np
    · subst hpn; rw [Function.update_self]; exact hx
    · rw [Function.update_of_ne hpn]; exact hm p (by omega)

theorem eachRank_inv {f : Nat → Res α} {np : Nat} {d m : Nat → α}
    (h : eachRank f np d = .ok m) : ∀ p, p < np → f p = .ok (m p) := by
  induction np generalizing m with
  | zero => intro p hp; omega
  | succ np ih =>
    rw [eachRank] at h
    split at h
    · simp at h
    · rename_i m' e
      split at h
      · simp at h
      · rename_i x hx
        simp only [Except.ok.injEq] at h
        subst h
        intro p hp
        by_cases hpn : p = np
        · subst hpn; rw [Function.update_self]; exact hx
        · rw [Function.update_of_ne hpn]; exact ih e p (by omega)

theorem allreduce_eq {M : Type _} [AddCommMonoid M] (np : Nat) (x : Nat → M) :
    allreduce np x = ∑ p ∈ Finset.range np, x p := by
  unfold allreduce
  rw [Kmeans.foldl_add_eq, zero_add, sum_map_range]

/-! ### Sums over the rows of all ranks -/

/-- Offset of a rank. -/
def off (g np p : Nat) : Nat := p * (g / np)

theorem split_procs {g np : Nat} (hp : 0 < np) :
    Split g np (fun p => if p < np then List.range' (off g np p) (procNrow g np p) else []) := by
  refine ⟨?_, fun t ht => by rw [if_neg (by omega)]⟩
  have h := proc_blocks g np hp
  unfold Spec.rowsOf at h
  rw [List.flatMap_map] at h
  rw [List.range_eq_range' (n := g), ← h]
  have : (List.range np).flatMap
        (fun p => if p < np then List.range' (off g np p) (procNrow g np p) else [])
      = (List.range np).flatMap
        (fun a => List.range' (a * (g / np), procNrow g np a).1
          (a * (g / np), procNrow g np a).2) := by
    apply List.flatMap_congr
    intro p hpp
    rw [if_pos (List.mem_range.1 hpp)]; rfl
  rw [this]

theorem sum_range' {M : Type _} [AddCommMonoid M] (f : Nat → M) (o len : Nat) :
    ((List.range' o len).map f).sum = ∑ r ∈ Finset.range len, f (o + r) := by
  rw [List.range'_eq_map_range, List.map_map, ← sum_map_range]
  rfl

theorem sum_procs {M : Type _} [AddCommMonoid M] {g np : Nat} (hp : 0 < np) (f : Nat → M) :
    ∑ p ∈ Finset.range np, ∑ r ∈ Finset.range (procNrow g np p), f (off g np p + r)
      = ∑ r ∈ Finset.range g, f r := by
  rw [← (split_procs hp).sum f, sum_map_range]
  apply Finset.sum_congr rfl
  intro p hpp
  rw [if_pos (Finset.mem_range.1 hpp), sum_range']

theorem off_lt {g np p r : Nat} (hp : p < np) (hr : r < procNrow g np p) :
    off g np p + r < g := by
  have := (split_procs (g := g) (np := np) (by omega)).mem_iff (off g np p + r)
  apply this.1
  refine ⟨p, ?_⟩
  rw [if_pos hp]
  simp
  exact hr

theorem exists_off {g np r : Nat} (hnp : 0 < np) (hr : r < g) :
    ∃ p q, p < np ∧ q < procNrow g np p ∧ r = off g np p + q := by
  obtain ⟨p, hm⟩ := ((split_procs (g := g) hnp).mem_iff r).2 hr
  by_cases hp : p < np
  · rw [if_pos hp] at hm
    simp at hm
    exact ⟨p, r - off g np p, hp, by omega, by omega⟩
  · rw [if_neg hp] at hm; simp at hm

theorem procNrow_pos {g np p : Nat} (hnp : 0 < np) (h : np ≤ g) : 0 < procNrow g np p := by
  have := Nat.div_pos h hnp
  unfold procNrow; split <;> omega

theorem procNrow_le {g np p : Nat} (hp : p < np) : procNrow g np p ≤ g := by
  have h1 : g / np * np ≤ g := Nat.div_mul_le_self g np
  have hdm := Nat.div_add_mod g np
  unfold procNrow
  split
  · have h2 : g / np ≤ np * (g / np) := Nat.le_mul_of_pos_left _ (by omega)
    omega
  · have h2 : g / np ≤ np * (g / np) := Nat.le_mul_of_pos_left _ (by omega)
    omega

theorem construct_ok {g np : Nat} (hnp : 0 < np) (h : np ≤ g) (procs : Nat → α) :
    construct g np procs = .ok procs := by
  unfold construct
  have : ∀ m, eachRank (fun p => if procNrow g np p = 0 then .error .ub else .ok (procs p)) m procs
      = .ok procs := by
    intro m
    induction m with
    | zero => rfl
    | succ m ih =>
      rw [eachRank, ih]
      simp only
      rw [if_neg (by have := procNrow_pos (p := m) hnp h; omega)]
      simp
  exact this np

/-! ### One iteration, unpruned -/

theorem emRow_delta [Field R] [LinearOrder D] (dist : Row R n → Row R n → D) (big : D)
    (data : Nat → Row R n) (cents : Fin k → Row R n) (r : Nat) (o : Option (Fin k))
    (a : Kmeans.Acc R k n) :
    Kmeans.emRow dist big data cents r o a =
      match (match Kmeans.emScan big (fun c => dist (data r) (cents c)) with
        | none => (.error .assertFail : Res (Option (Fin k)))
        | some c => .ok (some c)) with
      | .error e => .error e
      | .ok m' => .ok (m', match m' with
        | none => a
        | some c => { changed := if some c ≠ o then a.changed + 1 else a.changed
                      loc := a.loc.addMember (data r) c }) := by
  unfold Kmeans.emRow
  cases Kmeans.emScan big (fun c => dist (data r) (cents c)) <;> rfl

/-- A rank's state after its local step. -/
def localResult [Field R] [LT D] [DecidableLT D] (dist : Row R n → Row R n → D) (big : D)
    (data : Nat → Row R n) (N : Nat) (s : Kmeans.KState R k n) : Kmeans.KState R k n :=
  let new := Kmeans.newAssign dist big data N s.cltrs.means s.assign
  { cltrs :=
      { means := fun c j => ∑ r ∈ Finset.range N, if new r = some c then data r j else 0
        num := fun c => ∑ r ∈ Finset.range N, if new r = some c then 1 else 0
        complete := fun _ => false }
    assign := new
    counts := s.counts
    changed := ∑ r ∈ Finset.range N, if new r ≠ s.assign r then 1 else 0 }

theorem localStep_closed [Field R] [LinearOrder D] {dist : Row R n → Row R n → D} {big : D}
    {data : Nat → Row R n} {N nt : Nat} {sched : List Nat} {s : Kmeans.KState R k n}
    (hn : 0 < N) (hnt : 0 < nt) (hlt : N < 4294967296)
    (hc : Complete (effThreads nt N) (Kmeans.threadRows N nt) sched)
    (hb : ∀ r, r < N → ∃ c, dist (data r) (s.cltrs.means c) < big) :
    localStep dist big data N nt sched s = .ok (localResult dist big data N s) := by
  have hsp := Kmeans.split_threadRows hn hnt hlt
  set new := Kmeans.newAssign dist big data N s.cltrs.means s.assign with hnew
  obtain ⟨q, e, h1, h2, h3⟩ := run_det (α := Kmeans.Acc R k n)
    (f := Kmeans.emRow dist big data s.cltrs.means)
    (g := fun r _ => match Kmeans.emScan big (fun c => dist (data r) (s.cltrs.means c)) with
        | none => (.error .assertFail : Res (Option (Fin k)))
        | some c => .ok (some c))
    (h := fun r o m' a => match m' with
        | none => a
        | some c => { changed := if some c ≠ o then a.changed + 1 else a.changed
                      loc := a.loc.addMember (data r) c })
    (fun r m a => by
      rw [emRow_delta]
      cases Kmeans.emScan big (fun c => dist (data r) (s.cltrs.means c)) <;> rfl)
    (s0 := { mem := s.assign, acc := fun _ => Kmeans.Acc.init, todo := Kmeans.threadRows N nt })
    hsp hc
    (fun r hr => by
      obtain ⟨c, hcc⟩ := Kmeans.emScan_exists (hb r hr)
      exact ⟨some c, by simp only [hcc]⟩)
  have hmem : q.mem = new := by
    funext r
    by_cases hr : r < N
    · have := h1 r hr
      obtain ⟨c, hcc⟩ := Kmeans.emScan_exists (hb r hr)
      simp only [hcc, Except.ok.injEq] at this
      rw [← this, hnew]
      unfold Kmeans.newAssign
      rw [if_pos hr, hcc]
    · rw [h2 r (by omega), hnew]
      unfold Kmeans.newAssign
      rw [if_neg hr]
  have hsome : ∀ r, r < N → ∃ c, new r = some c := by
    intro r hr
    obtain ⟨c, hcc⟩ := Kmeans.emScan_exists (hb r hr)
    exact ⟨c, by rw [hnew]; unfold Kmeans.newAssign; rw [if_pos hr, hcc]⟩
  have hdelta : ∀ r, r < N → Kmeans.RowDelta (R := R) (k := k) (n := n)
      (fun a => match q.mem r with
        | none => a
        | some c => { changed := if some c ≠ s.assign r then a.changed + 1 else a.changed
                      loc := a.loc.addMember (data r) c })
      (fun c j => if new r = some c then data r j else 0)
      (fun c => if new r = some c then 1 else 0)
      (if new r ≠ s.assign r then 1 else 0) := by
    intro r hr
    obtain ⟨y, hy⟩ := hsome r hr
    rw [hmem, hy]
    refine ⟨?_, ?_, ?_⟩
    · intro a; simp only; split <;> rfl
    · intro a c j
      simp only [Clusters.addMember]
      by_cases hcy : c = y
      · subst hcy; simp
      · rw [Function.update_of_ne hcy]
        rw [if_neg (by simpa using Ne.symm hcy), add_zero]
    · intro a c
      simp only [Clusters.addMember]
      by_cases hcy : c = y
      · subst hcy; simp
      · rw [Function.update_of_ne hcy]
        rw [if_neg (by simpa using Ne.symm hcy), add_zero]
  obtain ⟨m1, m2, m3, m4⟩ := Kmeans.merge_delta hsp hdelta q.acc h3 Clusters.empty 0
  unfold localStep localResult
  rw [e]
  simp only
  rw [m1, hmem, zero_add]
  congr 2
  apply Clusters.ext
  · funext c j; rw [m3]; exact zero_add _
  · funext c; rw [m4]; exact zero_add _
  · rw [m2]; rfl

/-- All ranks hold the same centroids and together the global assignment `A`. -/
structure Sync (g np : Nat) (A : Nat → Option (Fin k)) (means : Fin k → Row R n)
    (procs : Nat → Kmeans.KState R k n) : Prop where
  assign : ∀ p r, p < np → r < procNrow g np p → (procs p).assign r = A (off g np p + r)
  means : ∀ p, p < np → (procs p).cltrs.means = means

theorem iteration_closed [Field R] [LinearOrder D] {dist : Row R n → Row R n → D} {big : D}
    {data : Nat → Row R n} {g np nt : Nat} {sched : Nat → List Nat}
    {procs : Nat → Kmeans.KState R k n} {A : Nat → Option (Fin k)} {cents : Fin k → Row R n}
    (hnp : 0 < np) (hg : np ≤ g) (hnt : 0 < nt) (hlt : g < 4294967296)
    (hc : ∀ p, p < np →
      Complete (effThreads nt (procNrow g np p)) (Kmeans.threadRows (procNrow g np p) nt) (sched p))
    (hs : Sync g np A cents procs)
    (hb : ∀ r, r < g → ∃ c, dist (data r) (cents c) < big) :
    ∃ procs', iteration dist big data g np nt sched procs = .ok procs' ∧
      let B := Kmeans.newAssign dist big data g cents A
      Sync g np B (Kmeans.clustersOf g data B).means procs' ∧
      ∀ p, p < np → (procs' p).cltrs = Kmeans.clustersOf g data B ∧
        (∀ c, (procs' p).counts c = (Spec.count g B c : Int)) ∧
        (procs' p).changed = numChanged g A B := by
  set B := Kmeans.newAssign dist big data g cents A with hB
  have hloc : ∀ p, p < np → localStep dist big (procData data g np p) (procNrow g np p) nt
      (sched p) (procs p) = .ok (localResult dist big (procData data g np p) (procNrow g np p) (procs p)) :=
    fun p hp =>
    localStep_closed (procNrow_pos hnp hg) hnt (lt_of_le_of_lt (procNrow_le hp) hlt) (hc p hp)
      (fun r hr => by
        rw [hs.means p hp]; exact hb _ (off_lt hp hr))
  have hnewB : ∀ p r, p < np → r < procNrow g np p →
      Kmeans.newAssign dist big (procData data g np p) (procNrow g np p) (procs p).cltrs.means
        (procs p).assign r = B (off g np p + r) := by
    intro p r hp hr
    rw [hB]
    unfold Kmeans.newAssign
    rw [if_pos hr, if_pos (off_lt hp hr), hs.means p hp]
    rfl
  obtain ⟨loc, e1, h1⟩ := eachRank_ok (np := np) (d := procs) fun p hp => ⟨_, hloc p hp⟩
  have hl : ∀ p, p < np →
      localResult dist big (procData data g np p) (procNrow g np p) (procs p) = loc p := fun p hp => by
    have := h1 p hp
    rw [hloc p hp] at this
    simpa only [Except.ok.injEq] using this
  have hmeans : ∀ c j, allreduce np (fun p => (loc p).cltrs.means c j) = memberSum g data B c j := by
    intro c j
    rw [allreduce_eq, memberSum_eq, ← sum_procs (g := g) hnp]
    apply Finset.sum_congr rfl
    intro p hp
    have hp := Finset.mem_range.1 hp
    rw [← hl p hp]
    unfold localResult
    simp only
    apply Finset.sum_congr rfl
    intro r hr
    rw [hnewB p r hp (Finset.mem_range.1 hr)]
    rfl
  have hnum : ∀ c, allreduce np (fun p => (loc p).cltrs.num c) = (Spec.count g B c : Int) := by
    intro c
    rw [allreduce_eq, count_eq, ← sum_procs (g := g) hnp]
    apply Finset.sum_congr rfl
    intro p hp
    have hp := Finset.mem_range.1 hp
    rw [← hl p hp]
    unfold localResult
    simp only
    apply Finset.sum_congr rfl
    intro r hr
    rw [hnewB p r hp (Finset.mem_range.1 hr)]
  have hch : allreduce np (fun p => (loc p).changed) = numChanged g A B := by
    rw [allreduce_eq, Kmeans.numChanged_eq_sum, ← sum_procs (g := g) hnp]
    apply Finset.sum_congr rfl
    intro p hp
    have hp := Finset.mem_range.1 hp
    rw [← hl p hp]
    unfold localResult
    simp only
    apply Finset.sum_congr rfl
    intro r hr
    rw [hnewB p r hp (Finset.mem_range.1 hr), hs.assign p r hp (Finset.mem_range.1 hr)]
  have hsome : ∀ r, r < g → ∃ c, B r = some c := by
    intro r hr
    obtain ⟨c, hcc⟩ := Kmeans.emScan_exists (hb r hr)
    exact ⟨c, by rw [hB]; unfold Kmeans.newAssign; rw [if_pos hr, hcc]⟩
  have hafter : ∀ p, p < np → afterReduce g
      (fun c j => allreduce np fun p => (loc p).cltrs.means c j)
      (fun c => allreduce np fun p => (loc p).cltrs.num c)
      (allreduce np fun p => (loc p).changed) (loc p) =
      .ok { cltrs := Kmeans.clustersOf g data B, assign := (loc p).assign
            counts := fun c => (Spec.count g B c : Int), changed := numChanged g A B } := by
    intro p hp
    unfold afterReduce
    have hchk : (List.finRange k).foldl (fun m i => m + (((loc p).cltrs.setMeans
        (fun c j => allreduce np fun p => (loc p).cltrs.means c j)).setNum
        (fun c => allreduce np fun p => (loc p).cltrs.num c)).num i) (0 : Int) = (g : Int) := by
      rw [Kmeans.foldl_add_eq, Kmeans.sum_finRange, zero_add]
      simp only [Clusters.setNum, hnum]
      rw [← Nat.cast_sum, Kmeans.sum_count_of_all_assigned g B hsome]
    simp only
    rw [if_neg (by rw [hchk]; simp)]
    have hfin : (((loc p).cltrs.setMeans
        (fun c j => allreduce np fun p => (loc p).cltrs.means c j)).setNum
        (fun c => allreduce np fun p => (loc p).cltrs.num c)).finalizeAll
        = Kmeans.clustersOf g data B := by
      apply Clusters.ext
      · funext c
        rw [Clusters.finalizeAll_means, Kmeans.finMean_of_counts (data := data) (N := g) (a := B)]
        · rfl
        · rw [← hl p hp]; rfl
        · intro j; exact hmeans c j
        · exact hnum c
      · rw [Clusters.finalizeAll_num]; funext c; exact hnum c
      · funext c; rw [Clusters.finalizeAll_complete]; rfl
    rw [hfin, hch]
    congr 2
    funext c; exact hnum c
  obtain ⟨procs', e2, h2⟩ := eachRank_ok (np := np) (d := loc) fun p hp => ⟨_, hafter p hp⟩
  have hp' : ∀ p, p < np → procs' p =
      { cltrs := Kmeans.clustersOf g data B
        assign := (loc p).assign
        counts := fun c => (Spec.count g B c : Int)
        changed := numChanged g A B } := by
    intro p hp
    have := h2 p hp
    rw [hafter p hp] at this
    simp only [Except.ok.injEq] at this
    exact this.symm
  refine ⟨procs', ?_, ⟨?_, ?_⟩, ?_⟩
  · unfold iteration iterationBy; rw [e1]; exact e2
  · intro p r hp hr
    rw [hp' p hp]
    simp only
    rw [← hl p hp]
    exact hnewB p r hp hr
  · intro p hp; rw [hp' p hp]
  · intro p hp; rw [hp' p hp]; exact ⟨rfl, fun _ => rfl, rfl⟩

/-! ### Gathering the assignments -/

theorem gather_eq {β : Type _} {g np : Nat} (hp : 0 < np) (assign : Nat → Nat → Option β) :
    ∃ v, gather g np assign = .ok v ∧
      ∀ p r, p < np → r < procNrow g np p → v (off g np p + r) = assign p r := by
  have hslices : gatherSlices g np = (List.range np).map fun rank =>
      (rank * (g / np), procNrow g np rank) := by
    obtain ⟨m, rfl⟩ : ∃ m, np = m + 1 := ⟨np - 1, by omega⟩
    unfold gatherSlices
    rw [List.range_succ_eq_map, List.map_cons, List.map_map]
    simp only [Nat.zero_mul, Nat.add_sub_cancel]
    congr 1
    apply List.map_congr_left
    intro i hi
    have hi := List.mem_range.1 hi
    simp only [Function.comp, procNrow, Nat.add_sub_cancel, Prod.mk.injEq]
    refine ⟨trivial, ?_⟩
    by_cases h : i + 1 = m
    · rw [if_pos h, if_pos h, if_neg (by omega)]
    · rw [if_neg h, if_neg h, if_neg (by omega)]
  unfold gather
  rw [hslices]
  have hz : ((List.range np).map fun rank => (rank * (g / np), procNrow g np rank)).zipIdx
      = (List.range np).map fun p => ((p * (g / np), procNrow g np p), p) := by
    apply List.ext_getElem
    · simp
    · intro i h1 h2; simp
  rw [hz, List.foldl_map]
  have gen : ∀ m, m ≤ np → ∃ v, (List.range m).foldl
      (fun (acc : Res (Nat → Option β)) p => match acc with
        | .error e => .error e
        | .ok buf =>
          if procNrow g np p < procNrow g np p then .error .assertFail
          else if g < p * (g / np) + procNrow g np p then .error .ub
          else .ok (writeSlice buf (p * (g / np)) (procNrow g np p) (assign p)))
      (.ok fun _ => none) = .ok v ∧
      ∀ p r, p < m → r < procNrow g np p → v (off g np p + r) = assign p r := by
    intro m
    induction m with
    | zero => intro _; exact ⟨_, rfl, fun p r h => by omega⟩
    | succ m ih =>
      intro hm
      obtain ⟨v, e, hv⟩ := ih (by omega)
      rw [List.range_succ, List.foldl_append, e]
      simp only [List.foldl_cons, List.foldl_nil, lt_irrefl, if_false]
      have hbound : m * (g / np) + procNrow g np m ≤ g := by
        by_cases h0 : procNrow g np m = 0
        · rw [h0]
          have h1 : g / np * np ≤ g := Nat.div_mul_le_self g np
          have h2 : m * (g / np) ≤ np * (g / np) := Nat.mul_le_mul_right _ (by omega)
          rw [Nat.mul_comm np] at h2
          omega
        · have := off_lt (g := g) (np := np) (p := m) (r := procNrow g np m - 1) (by omega) (by omega)
          unfold off at this
          omega
      rw [if_neg (by omega)]
      refine ⟨_, rfl, ?_⟩
      intro p r hpm hr
      unfold writeSlice
      by_cases hpe : p = m
      · subst hpe
        rw [if_pos (by unfold off; omega)]
        congr 1
        unfold off; omega
      · have hlt : off g np p + r < m * (g / np) := by
          have h2 : (p + 1) * (g / np) ≤ m * (g / np) := Nat.mul_le_mul_right _ (by omega)
          rw [Nat.succ_mul] at h2
          unfold procNrow at hr
          rw [if_neg (by omega)] at hr
          unfold off; omega
        rw [if_neg (by omega)]
        exact hv p r (by omega) hr
  exact gen np (le_refl _)

end Knor.Distr

namespace Knor.Distr

open Knor Knor.Par Knor.Partition Knor.Spec

variable {R D α : Type _} {k n : Nat}

/-- Invariant rule for the main loop. -/
theorem loop_inv {np maxIters : Nat} {stop : α → Bool} {body : Nat → (Nat → α) → Res (Nat → α)}
    (hnp : 0 < np) (hmax : 0 < maxIters) (Inv : Nat → (Nat → α) → Prop)
    (hbody : ∀ i procs, i < maxIters → Inv i procs → (i = 0 ∨ stop (procs 0) = false) →
      ∃ procs', body i procs = .ok procs' ∧ Inv (i + 1) procs' ∧
        ∀ p, p < np → stop (procs' p) = stop (procs' 0)) (fuel : Nat) :
    ∀ i procs, maxIters ≤ i + fuel → i ≤ maxIters → Inv i procs →
      (i = 0 ∨ stop (procs 0) = false) →
      ∃ res, loop np maxIters stop body fuel i procs = .ok res ∧ Inv res.iters res.procs ∧
        i ≤ res.iters ∧ res.iters ≤ maxIters ∧
        ((res.iters = maxIters ∧ (i = maxIters → res.procs = procs)) ∨
          (i < res.iters ∧ stop (res.procs 0) = true)) := by
  induction fuel with
  | zero =>
    intro i procs h1 h2 hI _
    exact ⟨_, rfl, hI, le_refl _, h2, Or.inl ⟨by simp only; omega, fun _ => rfl⟩⟩
  | succ fuel ih =>
    intro i procs h1 h2 hI hst
    unfold loop
    by_cases hg : i < maxIters
    · rw [if_pos ⟨hg, hmax⟩]
      obtain ⟨procs', e, hI', hs⟩ := hbody i procs hg hI hst
      rw [e]
      simp only
      cases hb : stop (procs' 0) with
      | true =>
        rw [if_pos (fun p hp => by rw [hs p hp, hb])]
        exact ⟨_, rfl, hI', by simp, by simp only; omega, Or.inr ⟨by simp, hb⟩⟩
      | false =>
        rw [if_neg (fun h => by have := h 0 hnp; rw [hb] at this; simp at this),
          if_neg (by
            rintro ⟨p, hp, h⟩
            rw [hs p hp, hb] at h; simp at h)]
        obtain ⟨res, e', j1, j2, j3, j4⟩ := ih (i + 1) procs' (by omega) (by omega) hI' (Or.inr hb)
        refine ⟨res, e', j1, by omega, j3, ?_⟩
        rcases j4 with ⟨h, _⟩ | ⟨h, h'⟩
        · exact Or.inl ⟨h, fun h => by omega⟩
        · exact Or.inr ⟨by omega, h'⟩
    · rw [if_neg (fun h => hg h.1)]
      exact ⟨_, rfl, hI, le_refl _, h2, Or.inl ⟨by simp only; omega, fun _ => rfl⟩⟩

end Knor.Distr
