import Verif.Spec.JobStart
import Verif.Props.PrunedDriver
import Verif.Props.Distr
import Verif.Props.Init

namespace Knor.Driver

open Knor Knor.Spec Knor.Io Knor.Partition Knor.Par Knor.Init

variable {R S B : Type _} {k n : Nat}

/-! ### The data -/

theorem ownerOf_off {g np p q : Nat} (hnp : 0 < np) (hg : np ≤ g) (hp : p < np) (hq : q < procNrow g np p) :
    ownerOf g np (Distr.off g np p + q) = p := by
  have hpos : 0 < g / np := Nat.div_pos hg hnp
  have hd : (Distr.off g np p + q) / (g / np) = p + q / (g / np) := by
    unfold Distr.off
    rw [Nat.add_comm, Nat.add_mul_div_right _ _ hpos, Nat.add_comm]
  unfold ownerOf
  rw [hd]
  unfold procNrow at hq
  split at hq
  · rename_i h
    rw [h]
    exact Nat.min_eq_right (Nat.le_add_right _ _)
  · rw [Nat.div_eq_of_lt hq]
    omega

theorem loadRanks_ok [Zero R] {c : Codec R B} (hc : CodecOk c) (m : Nat → Nat → R) {g np nt : Nat} {bytes : List B}
    (hnp : 0 < np) (hg : np ≤ g) (hr : 0 < nt) (hcol : 0 < n) (hlt : g < 4294967296)
    (hsz : g * n * c.size < 9223372036854775808) (hst : Stores c bytes m g n) :
    ∃ ws, loadRanks c bytes g np nt n = .ok ws ∧
      ∀ r, r < g → rowsInRanks (n := n) ws g np nt r = matRows m r := by
  have hone : ∀ p, p < np → ∃ ws, loadAll c bytes (procNrow g np p) nt n (g / np * p) = .ok ws ∧
      ∀ row, row < procNrow g np p → thdData ws (procNrow g np p) nt row = .ok (rowOf m n (g / np * p + row)) := by
    intro p hp
    refine C51_lookup_after_load hc m g _ nt n _ (Distr.procNrow_pos hnp hg) hr hcol ?_ hlt hsz bytes hst
    have h0 := Distr.procNrow_pos (p := p) hnp hg
    have h1 := Distr.off_lt (g := g) (np := np) (r := procNrow g np p - 1) hp (by omega)
    unfold Distr.off at h1
    rw [Nat.mul_comm]
    omega
  obtain ⟨ws, e, hws⟩ := Distr.eachRank_ok
    (f := fun p => loadAll c bytes (procNrow g np p) nt n (g / np * p)) (np := np) (d := fun _ => []) (fun p hp => by
      obtain ⟨w, h, _⟩ := hone p hp
      exact ⟨w, h⟩)
  refine ⟨ws, e, fun r hrg => ?_⟩
  obtain ⟨p, q, hp, hq, rfl⟩ := Distr.exists_off (g := g) hnp hrg
  unfold rowsInRanks
  rw [ownerOf_off hnp hg hp hq]
  obtain ⟨w, h1, h2⟩ := hone p hp
  have := hws p hp
  rw [h1] at this
  obtain rfl := Except.ok.inj this
  unfold rowsIn
  have hsub : Distr.off g np p + q - p * (g / np) = q := by unfold Distr.off; omega
  rw [hsub, h2 q hq]
  funext j
  unfold rowOf matRows Distr.off
  dsimp only
  rw [List.getD_eq_getElem?_getD, List.getElem?_map, List.getElem?_range j.isLt, Nat.mul_comm p]
  rfl

/-! ### The initialisation -/

/-- One worker that goes through all rows. -/
theorem split_one (g : Nat) : Split g 1 fun t => if t = 0 then List.range g else [] :=
  ⟨by simp, fun t ht => if_neg (by omega)⟩

theorem complete_one (g : Nat) : Complete 1 (fun t => if t = 0 then List.range g else []) (List.replicate g 0) := by
  intro t ht
  obtain rfl : t = 0 := by omega
  simp

/-- Distributed k-means++ on all ranks. -/
theorem kppDist_ok [Field R] [LinearOrder R] [IsStrictOrderedRing R] (zeroIt : Bool) (dist : Row R n → Row R n → R)
    (big : R) (rng : Rng R S k) (data data' : Nat → Row R n) (g np nt : Nat) (hdata : ∀ r, r < g → data r = data' r)
    (hk : 0 < k) (hnp : 0 < np) (hg : np ≤ g) (hnt : 0 < nt) (hlt : g < 4294967296) (hrng : RngOk rng g)
    (T : Nat → Nat) (todo : Nat → Nat → List Nat) (hsp : ∀ p, p < np → Split (procNrow g np p) (T p) (todo p))
    (sched : Nat → Nat → List Nat) (hc : ∀ i p, p < np → Complete (T p) (todo p) (sched i p))
    (hp : Seedable dist big data' g) (given : Option (Fin k → Row R n)) :
    ∃ ps c0, ∃ sl : Nat → KppSlot R k, kppDist zeroIt dist data g np nt T todo sched (rng.row rng.seed).1
        (fun i => (rng.unit (Init.skip rng.unit i (rng.row rng.seed).2)).1)
        (fun _ => ⟨Clusters.empty, fun _ => ⟨big, none⟩⟩) = .ok ps ∧
      StartsAt .plusplus dist data' g rng given c0 ∧
      (∀ p, p < np → (ps p).cltrs.means = c0 ∧ ∀ r, r < procNrow g np p → (ps p).slots r = sl (Distr.off g np p + r)) ∧
      ∀ r, r < g → ∃ c, (sl r).assign = some c ∧ (sl r).dist = dist (data r) (c0 c) ∧
        IsNearest (fun c => dist (data r) (c0 c)) c := by
  have hn : 0 < g := by omega
  have hpos : ∀ q r, q < g → r < g → 0 ≤ dist (data q) (data r) := fun q r hq hr => by
    rw [hdata q hq, hdata r hr]; exact hp.pos q r hq hr
  have hself : ∀ r, r < g → dist (data r) (data r) = 0 := fun r hr => by
    rw [hdata r hr]; exact hp.self r hr
  have hf := hrng.row rng.seed
  have hbig : ∀ r, r < g → dist (data r) (data (rng.row rng.seed).1) < big := fun r hr => by
    rw [hdata r hr, hdata _ hf]; exact hp.lt r _ hr hf
  have hu : ∀ i, 0 ≤ (rng.unit (skip rng.unit i (rng.row rng.seed).2)).1 ∧
      (rng.unit (skip rng.unit i (rng.row rng.seed).2)).1 ≤ 1 := fun i => hrng.unit _
  have hc1 : ∀ _ : Nat, Complete 1 (fun t => if t = 0 then List.range g else []) (List.replicate g 0) :=
    fun _ => complete_one g
  obtain ⟨s', e, hok, _⟩ := C29_kmeanspp (k := k) dist big data g nt 1 _ hpos hself (split_one g) hk hn hnt hlt _ hc1
    _ hf _ hu hbig ⟨Clusters.empty, fun _ => ⟨big, none⟩⟩ (fun _ _ => rfl)
  obtain ⟨s2, ps, e2, e3, h⟩ := C53_distributed_kmeanspp (k := k) zeroIt dist big data g np nt 1 T _ todo hpos hself
    (split_one g) hsp hk hnp hg hnt hlt _ sched hc1 hc _ hf _ hu hbig ⟨Clusters.empty, fun _ => ⟨big, none⟩⟩
    (fun _ => ⟨Clusters.empty, fun _ => ⟨big, none⟩⟩) (fun _ _ => rfl) (fun _ => rfl) (fun _ _ _ _ => rfl)
    (fun _ _ _ => rfl)
  rw [e] at e2
  obtain rfl := Except.ok.inj e2
  refine ⟨ps, s'.cltrs.means, s'.slots, e3, fun c => ?_, h, fun r hr => hok.nearest r hr⟩
  obtain ⟨q1, q2⟩ := C29_weighted_choice dist big data g nt 1 _ hpos hself (split_one g) hn hnt hlt _ hc1 _ hf _ hu
    hbig ⟨Clusters.empty, fun _ => ⟨big, none⟩⟩ s' (fun _ _ => rfl) e c
  refine ⟨fun h => by rw [← hdata _ hf]; exact q1 h, fun h => ?_⟩
  obtain ⟨r, d, w1, w2, w3⟩ := q2 h
  refine ⟨r, d, _, ?_, minTo_data hdata w2, outputs_get _ _ _ _ (by have := c.isLt; omega), w3⟩
  rw [← hdata r w3.1]; exact w1

/-- What all ranks hold after the initialisation. -/
theorem runInitDist_ok [Field R] [LinearOrder R] [IsStrictOrderedRing R] (dist : Row R n → Row R n → R) (big : R)
    (rng : Rng R S k) (data data' : Nat → Row R n) (g np nt : Nat) (hdata : ∀ r, r < g → data r = data' r)
    (hk : 0 < k) (hnp : 0 < np) (hg : np ≤ g) (hnt : 0 < nt) (hlt : g < 4294967296) (hrng : RngOk rng g)
    (sched : Nat → Nat → List Nat) (hc : Distr.SchedOk g np nt sched)
    (it : InitT) (hpp : it = .plusplus → Seedable dist big data' g)
    (given : Option (Nat → Nat → R)) :
    ∃ cl procs c0, construct it (given.map fun g => rowsFrom g n 0 k) = .ok cl ∧
      runInitDist dist big rng data g np nt sched it cl = .ok procs ∧
      StartsAt it dist data' g rng (givenCents given) c0 ∧ ∀ p, p < np → (procs p).cltrs.means = c0 := by
  obtain ⟨cl, e0, h0, h1⟩ := construct_ok (k := k) (n := n) hk it given
  refine ⟨cl, ?_⟩
  cases it with
  | none =>
    refine ⟨_, cl.means, e0, rfl, ?_, fun _ _ => rfl⟩
    obtain ⟨w1, w2⟩ := h1 rfl
    refine ⟨fun g hg => ?_, fun hg => w2 (by unfold givenCents at hg; simpa using hg)⟩
    cases given with
    | none => cases hg
    | some g' =>
      rw [← Option.some.inj hg]
      exact w1 g' rfl
  | forgy =>
    obtain rfl := h0 (by decide)
    obtain ⟨cs, e, h⟩ := C27_distributed_forgy (k := k) rng.row rng.seed data g np nt hnp hnt hlt hrng.row
      (fun _ => Clusters.empty) (fun _ _ _ _ => rfl)
    refine ⟨fun p => ⟨cs p, fun _ => none, (cs p).num, 0⟩, (cs 0).means, e0, ?_, fun c => ?_, fun p hp => ?_⟩
    · unfold runInitDist; dsimp only; rw [e]
    · obtain ⟨r, hr, q1, q2⟩ := h 0 hnp c
      exact ⟨r, hr, q1, by rw [← hdata r hr]; exact q2⟩
    · funext c
      obtain ⟨r, hr, q1, q2⟩ := h 0 hnp c
      obtain ⟨r', hr', q1', q2'⟩ := h p hp c
      rw [q1] at q1'
      dsimp only
      rw [q2, q2', Option.some.inj q1']
  | random =>
    obtain rfl := h0 (by decide)
    obtain ⟨st, A, e, q1, q2⟩ := C28_C31_distributed_random_partition rng.clust rng.seed data g np nt hnp hnt hlt
      (fun _ => (Clusters.empty, fun _ => none)) (fun _ _ => rfl)
    refine ⟨fun p => ⟨(st p).1, (st p).2, (st p).1.num, 0⟩, memberMean g data' A, e0, ?_, ⟨A, q1, fun _ _ => rfl⟩,
      fun p hp => ?_⟩
    · unfold runInitDist; dsimp only; rw [e]
    · funext c j
      rw [← memberMean_data hdata]
      exact (q2 p hp).2.2 c j
  | plusplus =>
    obtain rfl := h0 (by decide)
    have hsp : ∀ p, p < np → Split (procNrow g np p) (effThreads nt (procNrow g np p))
        (Kmeans.threadRows (procNrow g np p) nt) := fun p hp => by
      have := Distr.procNrow_le (g := g) hp
      exact Kmeans.split_threadRows (Distr.procNrow_pos hnp hg) hnt (by omega)
    obtain ⟨ps, c0, sl, e, hs, h, _⟩ := kppDist_ok false dist big rng data data' g np nt hdata hk hnp hg hnt hlt hrng
      _ _ hsp sched hc (hpp rfl) (givenCents given)
    refine ⟨fun p => ⟨(ps p).cltrs, fun r => ((ps p).slots r).assign, (ps p).cltrs.num, 0⟩, c0, e0, ?_, hs,
      fun p hp => (h p hp).1⟩
    unfold runInitDist; dsimp only; rw [e]

end Knor.Driver
