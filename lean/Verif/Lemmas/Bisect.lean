import Verif.Spec.Bisect
import Verif.Lemmas.HclustLoop
import Verif.Props.Hclust

/-! Every round of hierarchical clustering is two-means inside every partition. -/

namespace Knor.Hclust

open Knor Knor.Par Knor.Spec

variable {R D : Type _} {n : Nat}

/-- The rows of a cluster. -/
def members (N : Nat) (a : Nat → Nat) (i : Nat) : Finset Nat := (Finset.range N).filter fun r => a r = i

theorem mem_members {N : Nat} {a : Nat → Nat} {i r : Nat} : r ∈ members N a i ↔ r < N ∧ a r = i := by
  unfold members
  rw [Finset.mem_filter, Finset.mem_range]

theorem meanOf_members [Field R] {N : Nat} (data : Nat → Row R n) (a : Nat → Nat) (i : Nat) :
    meanOf N data a i = meanRows data (members N a i) := rfl

/-- Where a partition is after `t + 1` iterations, of which `T + 1` changed something. -/
structure Track [Field R] [LinearOrder R] [LinearOrder D] (c : Cfg R D n) (s0 : St R n) (t : Nat) (s : St R n) : Prop where
  part : s.part = s0.part
  final : s.final = s0.final
  closed : ∀ f, (s0.final f).isSome → members c.nrow s.assign f = members c.nrow s0.assign f
  nodes : ∀ p nd0, s0.hc p = some nd0 → ∃ nd, s.hc p = some nd ∧ nd.zero = nd0.zero ∧ nd.one = nd0.one ∧
    ∃ T, T ≤ t ∧ (nd.conv = false → T = t) ∧
      (nd.conv = true ↔ Rests c.dist c.data c.tol (members c.nrow s0.part p) (nd0.cl.means 0) (nd0.cl.means 1) T) ∧
      (∀ T', T' < T → ¬ Rests c.dist c.data c.tol (members c.nrow s0.part p) (nd0.cl.means 0) (nd0.cl.means 1) T') ∧
      members c.nrow s.assign nd.zero
        = firstSide c.dist c.data (members c.nrow s0.part p) (nd0.cl.means 0) (nd0.cl.means 1) T ∧
      members c.nrow s.assign nd.one = members c.nrow s0.part p \
        firstSide c.dist c.data (members c.nrow s0.part p) (nd0.cl.means 0) (nd0.cl.means 1) T

section
variable [Field R] [LinearOrder R] [LinearOrder D] {c : Cfg R D n} {M : Nat} {live : Finset Nat} {s s' : St R n}

omit [LinearOrder R] in
/-- A row on a side of `p` is a row of `p`. -/
theorem side_part (hw : Wf M [] [] live s) (hr : Ready c M s) {p : Nat} {nd : Node R n} (hp : s.hc p = some nd)
    {r : Nat} (hrN : r < c.nrow) {j : Fin 2} (e : s.assign r = nd.side j) : s.part r = p := by
  rcases hr.rows r hrN with ⟨h1, _⟩ | ⟨nd', h1, h2 | ⟨j', h2⟩⟩
  · rw [e] at h1
    exact absurd ⟨p, nd, j, ⟨hp, by simp⟩, rfl⟩ (hw.finChild _ h1)
  · rw [← h2, e, hw.sideNone p nd j ⟨hp, by simp⟩] at h1
    cases h1
  · exact (hw.uniq p _ nd nd' j j' ⟨hp, by simp⟩ ⟨h1, by simp⟩ (by rw [← e, h2])).symm

omit [LinearOrder R] in
/-- A row of a partition is not in a recorded cluster. -/
theorem part_open (hr : Ready c M s) {p : Nat} {nd : Node R n} (hp : s.hc p = some nd) {r : Nat} (hrN : r < c.nrow)
    (e : s.part r = p) (hw : Wf M [] [] live s) : s.final (s.assign r) = none := by
  rcases hr.rows r hrN with ⟨_, h1⟩ | ⟨nd', h1, h2 | ⟨j, h2⟩⟩
  · rw [e, hp] at h1; cases h1
  · cases hf : s.final (s.assign r) with
    | none => rfl
    | some v =>
      have := hw.finNone _ (by rw [hf]; rfl)
      rw [h2, h1] at this; cases this
  · cases hf : s.final (s.assign r) with
    | none => rfl
    | some v =>
      exact absurd ⟨_, nd', j, ⟨h1, by simp⟩, h2.symm⟩ (hw.finChild _ (by rw [hf]; rfl))

theorem fin_two (i : Fin 2) : i = 0 ∨ i = 1 := by revert i; decide

/-- One iteration of a partition that has not converged. -/
theorem iter_sides (hw : Wf M [] [] live s) (hr : Ready c M s) (hr' : Ready c M s') (h : IterOk c M s s')
    {p : Nat} {nd : Node R n} (hp : s.hc p = some nd) (hcv : nd.conv = false) :
    members c.nrow s'.assign nd.zero = nearer c.dist c.data (members c.nrow s.part p) (nd.cl.means 0) (nd.cl.means 1) ∧
    members c.nrow s'.assign nd.one = members c.nrow s.part p \
      nearer c.dist c.data (members c.nrow s.part p) (nd.cl.means 0) (nd.cl.means 1) := by
  obtain ⟨nd', hp', hsd⟩ := shape_open (fun p => (h.shape p).symm) hp
  have hback : ∀ r, r < c.nrow → ∀ j, s'.assign r = nd.side j → s.part r = p := by
    intro r hrN j e
    rw [← h.part]
    exact side_part (h.wf hw) hr' hp' hrN (e.trans (hsd j))
  have hmove : ∀ r, r < c.nrow → s.part r = p →
      (s'.assign r = nd.zero ↔ c.dist (c.data r) (nd.cl.means 0) ≤ c.dist (c.data r) (nd.cl.means 1)) ∧
      (s'.assign r = nd.one ↔ ¬ c.dist (c.data r) (nd.cl.means 0) ≤ c.dist (c.data r) (nd.cl.means 1)) := by
    intro r hrN e
    have hne := hw.sidesNe p nd ⟨hp, by simp⟩
    obtain ⟨i, h1, h2, h3⟩ := h.move r nd hrN (part_open hr hp hrN e hw) (by rw [e]; exact hp) hcv
    rcases fin_two i with rfl | rfl
    · have hle : c.dist (c.data r) (nd.cl.means 0) ≤ c.dist (c.data r) (nd.cl.means 1) := h2 1
      rw [h1, side_zero]
      exact ⟨⟨fun _ => hle, fun _ => rfl⟩, ⟨fun e => absurd e hne, fun e => absurd hle e⟩⟩
    · have hlt : ¬ c.dist (c.data r) (nd.cl.means 0) ≤ c.dist (c.data r) (nd.cl.means 1) := by
        intro hle
        have := h3 0 fun j => by
          rcases fin_two j with rfl | rfl
          · exact le_refl _
          · exact hle
        exact absurd this (by decide)
      rw [h1, side_one]
      exact ⟨⟨fun e => absurd e.symm hne, fun e => absurd e hlt⟩, ⟨fun _ => hlt, fun _ => rfl⟩⟩
  constructor
  · ext r
    unfold nearer
    rw [mem_members, Finset.mem_filter, mem_members]
    constructor
    · rintro ⟨h1, h2⟩
      have h3 := hback r h1 0 h2
      exact ⟨⟨h1, h3⟩, (hmove r h1 h3).1.1 h2⟩
    · rintro ⟨⟨h1, h2⟩, h3⟩
      exact ⟨h1, (hmove r h1 h2).1.2 h3⟩
  · ext r
    unfold nearer
    rw [mem_members, Finset.mem_sdiff, Finset.mem_filter, mem_members]
    constructor
    · rintro ⟨h1, h2⟩
      have h3 := hback r h1 1 h2
      exact ⟨⟨h1, h3⟩, fun h4 => (hmove r h1 h3).2.1 h2 h4.2⟩
    · rintro ⟨⟨h1, h2⟩, h3⟩
      exact ⟨h1, (hmove r h1 h2).2.2 fun h4 => h3 ⟨⟨h1, h2⟩, h4⟩⟩

/-- One iteration of a partition that has converged. -/
theorem iter_stays (hw : Wf M [] [] live s) (hr : Ready c M s) (hr' : Ready c M s') (h : IterOk c M s s')
    {p : Nat} {nd : Node R n} (hp : s.hc p = some nd) (hcv : nd.conv = true) (j : Fin 2) :
    members c.nrow s'.assign (nd.side j) = members c.nrow s.assign (nd.side j) := by
  obtain ⟨nd', hp', hsd⟩ := shape_open (fun p => (h.shape p).symm) hp
  ext r
  rw [mem_members, mem_members]
  refine and_congr_right fun hrN => ⟨fun e => ?_, fun e => ?_⟩
  · have h1 : s.part r = p := by
      rw [← h.part]
      exact side_part (h.wf hw) hr' hp' hrN (e.trans (hsd j))
    rw [← h.conv r nd hrN (part_open hr hp hrN h1 hw) (by rw [h1]; exact hp) hcv]
    exact e
  · have h1 := side_part hw hr hp hrN e
    rw [h.conv r nd hrN (part_open hr hp hrN h1 hw) (by rw [h1]; exact hp) hcv]
    exact e

theorem size_sides {P L : Finset Nat} {N z o : Nat} {a : Nat → Nat} (hL : L ⊆ P) (hz : members N a z = L)
    (ho : members N a o = P \ L) : size N a z + size N a o = P.card := by
  have e1 : size N a z = L.card := by rw [← hz]; rfl
  have e2 : size N a o = (P \ L).card := by rw [← ho]; rfl
  rw [e1, e2, Finset.card_sdiff_of_subset hL]
  have := Finset.card_le_card hL
  omega

omit [Field R] [LinearOrder R] in
theorem nearer_subset {dist : Row R n → Row R n → D} {data : Nat → Row R n} {P : Finset Nat} {m0 m1 : Row R n} :
    nearer dist data P m0 m1 ⊆ P := Finset.filter_subset _ _

omit [LinearOrder R] in
theorem firstSide_subset {dist : Row R n → Row R n → D} {data : Nat → Row R n} {P : Finset Nat} {m0 m1 : Row R n}
    (t : Nat) : firstSide dist data P m0 m1 t ⊆ P := by
  cases t <;> exact Finset.filter_subset _ _

/-- Recorded clusters keep their rows. -/
theorem iter_closed (hw : Wf M [] [] live s) (h : IterOk c M s s') {f : Nat} (hf : (s.final f).isSome) :
    members c.nrow s'.assign f = members c.nrow s.assign f := by
  ext r
  rw [mem_members, mem_members]
  exact and_congr_right fun hr => h.others f (hw.finNone f hf) (hw.finChild f hf) r hr

/-- A round starts with unconverged partitions, whose rows are assigned to them. -/
structure Fresh (c : Cfg R D n) (s : St R n) : Prop where
  conv : ∀ p nd, s.hc p = some nd → nd.conv = false
  rows : ∀ r, r < c.nrow → s.assign r = s.part r

/-- The first iteration of a round. -/
theorem track_first (hw : Wf M [] [] live s) (hr : Ready c M s) (hr' : Ready c M s') (h : IterOk c M s s')
    (hf : Fresh c s) : Track c s 0 s' := by
  refine ⟨h.part, h.final, fun f hf => iter_closed hw h hf, fun p nd hp => ?_⟩
  obtain ⟨nd', hp', hsd⟩ := shape_open (fun p => (h.shape p).symm) hp
  have hz : nd'.zero = nd.zero := (hsd 0).symm
  have ho : nd'.one = nd.one := (hsd 1).symm
  obtain ⟨h1, h2⟩ := iter_sides hw hr hr' h hp (hf.conv p nd hp)
  have hchg : changedRows c.nrow s s' p = (members c.nrow s.part p).card := by
    unfold changedRows members
    congr 1
    apply Finset.filter_congr
    intro r hrN
    rw [Finset.mem_range] at hrN
    refine ⟨fun e => e.1, fun e => ⟨e, ?_⟩⟩
    obtain ⟨i, h3, _⟩ := h.move r nd hrN (part_open hr hp hrN e hw) (by rw [e]; exact hp) (hf.conv p nd hp)
    rw [h3, hf.rows r hrN, e]
    intro e2
    have := hw.sideNone p nd i ⟨hp, by simp⟩
    rw [e2, hp] at this
    cases this
  refine ⟨nd', hp', hz, ho, 0, Nat.le_refl _, fun _ => rfl, ?_, fun T' hT => absurd hT (by omega), ?_, ?_⟩
  · rw [h.test p nd nd' hp hp', hchg, size_sides nearer_subset h1 h2, hf.conv p nd hp]
    unfold Rests switched
    simp
  · rw [hz]; exact h1
  · rw [ho]; exact h2

/-- A later iteration of a round. -/
theorem track_next {s0 : St R n} {t : Nat} (hw : Wf M [] [] live s) (hr : Ready c M s) (hr' : Ready c M s')
    (hst : Settled c.nrow M c.data s) (h : IterOk c M s s') (ht : Track c s0 t s) : Track c s0 (t + 1) s' := by
  refine ⟨h.part.trans ht.part, h.final.trans ht.final,
    fun f hf => (iter_closed hw h (by rw [ht.final]; exact hf)).trans (ht.closed f hf), fun p nd0 hp0 => ?_⟩
  obtain ⟨nd, hp, hz0, ho0, T, hT, hT1, hT2, hT3, hL, hL'⟩ := ht.nodes p nd0 hp0
  obtain ⟨nd', hp', hsd⟩ := shape_open (fun p => (h.shape p).symm) hp
  have hz : nd'.zero = nd.zero := (hsd 0).symm
  have ho : nd'.one = nd.one := (hsd 1).symm
  refine ⟨nd', hp', hz.trans hz0, ho.trans ho0, ?_⟩
  rw [hz, ho]
  cases hcv : nd.conv with
  | true =>
    have e0 := iter_stays hw hr hr' h hp hcv 0
    have e1 := iter_stays hw hr hr' h hp hcv 1
    have hc' : nd'.conv = true := (h.test p nd nd' hp hp').2 (Or.inl hcv)
    refine ⟨T, by omega, fun e => (by rw [hc'] at e; cases e), ⟨fun _ => hT2.1 hcv, fun _ => hc'⟩, hT3, ?_, ?_⟩
    · rw [← hL]; exact e0
    · rw [← hL']; exact e1
  | false =>
    have := hT1 hcv
    subst this
    obtain ⟨h1, h2⟩ := iter_sides hw hr hr' h hp hcv
    have m0 : nd.cl.means 0 = meanRows c.data
        (firstSide c.dist c.data (members c.nrow s0.part p) (nd0.cl.means 0) (nd0.cl.means 1) T) := by
      rw [(hst.nodes p nd 0 hp).2, meanOf_members, ← hL]; rfl
    have m1 : nd.cl.means 1 = meanRows c.data (members c.nrow s0.part p \
        firstSide c.dist c.data (members c.nrow s0.part p) (nd0.cl.means 0) (nd0.cl.means 1) T) := by
      rw [(hst.nodes p nd 1 hp).2, meanOf_members, ← hL']; rfl
    rw [m0, m1, ht.part] at h1 h2
    have hn : nearer c.dist c.data (members c.nrow s0.part p)
        (meanRows c.data (firstSide c.dist c.data (members c.nrow s0.part p) (nd0.cl.means 0) (nd0.cl.means 1) T))
        (meanRows c.data (members c.nrow s0.part p \
          firstSide c.dist c.data (members c.nrow s0.part p) (nd0.cl.means 0) (nd0.cl.means 1) T))
        = firstSide c.dist c.data (members c.nrow s0.part p) (nd0.cl.means 0) (nd0.cl.means 1) (T + 1) := rfl
    rw [hn] at h1 h2
    have hchg : changedRows c.nrow s s' p
        = switched c.dist c.data (members c.nrow s0.part p) (nd0.cl.means 0) (nd0.cl.means 1) (T + 1) := by
      unfold changedRows
      show _ = (Finset.filter _ _).card
      congr 1
      ext r
      rw [Finset.mem_filter, Finset.mem_filter, Finset.mem_range, mem_members, ← ht.part, and_assoc]
      rw [← ht.part] at hL hL' h1 h2
      refine and_congr_right fun hrN => and_congr_right fun e => ?_
      have k1 : r ∈ members c.nrow s.part p := mem_members.2 ⟨hrN, e⟩
      have hne := hw.sidesNe p nd ⟨hp, by simp⟩
      have q0 : s.assign r = nd.zero ↔ r ∈ firstSide c.dist c.data (members c.nrow s.part p) (nd0.cl.means 0) (nd0.cl.means 1) T := by
        rw [← hL, mem_members]; exact ⟨fun e => ⟨hrN, e⟩, fun e => e.2⟩
      have q1 : s.assign r = nd.one ↔ ¬ r ∈ firstSide c.dist c.data (members c.nrow s.part p) (nd0.cl.means 0) (nd0.cl.means 1) T := by
        have := Finset.ext_iff.1 hL' r
        rw [mem_members, Finset.mem_sdiff] at this
        exact ⟨fun e => (this.1 ⟨hrN, e⟩).2, fun e => (this.2 ⟨k1, e⟩).2⟩
      have q2 : s'.assign r = nd.zero ↔ r ∈ firstSide c.dist c.data (members c.nrow s.part p) (nd0.cl.means 0) (nd0.cl.means 1) (T + 1) := by
        rw [← h1, mem_members]; exact ⟨fun e => ⟨hrN, e⟩, fun e => e.2⟩
      have q3 : s'.assign r = nd.one ↔ ¬ r ∈ firstSide c.dist c.data (members c.nrow s.part p) (nd0.cl.means 0) (nd0.cl.means 1) (T + 1) := by
        have := Finset.ext_iff.1 h2 r
        rw [mem_members, Finset.mem_sdiff] at this
        exact ⟨fun e => (this.1 ⟨hrN, e⟩).2, fun e => (this.2 ⟨k1, e⟩).2⟩
      by_cases a1 : r ∈ firstSide c.dist c.data (members c.nrow s.part p) (nd0.cl.means 0) (nd0.cl.means 1) T <;>
        by_cases a2 : r ∈ firstSide c.dist c.data (members c.nrow s.part p) (nd0.cl.means 0) (nd0.cl.means 1) (T + 1)
      · rw [q0.2 a1, q2.2 a2]; simp [a1, a2]
      · rw [q0.2 a1, q3.2 a2]; simp [a1, a2]; exact fun e => hne e.symm
      · rw [q1.2 a1, q2.2 a2]; simp [a1, a2]; exact hne
      · rw [q1.2 a1, q3.2 a2]; simp [a1, a2]
    refine ⟨T + 1, Nat.le_refl _, fun _ => rfl, ?_, ?_, h1, h2⟩
    · rw [h.test p nd nd' hp hp', hchg, size_sides (firstSide_subset _) h1 h2, hcv]
      unfold Rests
      simp
    · intro T' hT'
      by_cases e : T' = T
      · subst e
        intro hh
        rw [hT2.2 hh] at hcv
        cases hcv
      · exact hT3 T' (by omega)

/-- All iterations of a round. -/
theorem track_iters (hbig : MeansWithin c.nrow c.data c.dist c.big)
    (hN : 0 < c.nrow) (hT : 0 < c.reqThreads) (hlt : c.nrow < 4294967296) {sched : Nat → List Nat}
    (hc : ∀ i, Complete (Partition.effThreads c.reqThreads c.nrow)
      (Kmeans.threadRows c.nrow c.reqThreads) (sched i)) {s0 : St R n} :
    ∀ (l : List Nat) (s s' : St R n) (t : Nat), Wf M [] [] live s → Settled c.nrow M c.data s → Track c s0 t s →
      forEach (fun s i => iteration c (sched i) s) l s = .ok s' → Track c s0 (t + l.length) s' := by
  intro l
  induction l with
  | nil => intro s s' t _ _ h e; cases e; exact h
  | cons x l ih =>
    intro s s' t hw hst ht e
    obtain ⟨s1, e1, h1⟩ := iteration_ok hw (hst.ready hbig) hN hT hlt (hc x)
    simp only [forEach, e1] at e
    have := ih s1 s' (t + 1) (h1.wf hw) h1.settled
      (track_next hw (hst.ready hbig) (h1.settled.ready hbig) hst h1 ht) e
    rw [List.length_cons, Nat.add_comm l.length 1, ← Nat.add_assoc]
    exact this

/-- What a round does to every partition. -/
theorem round_twoMeans (hbig : MeansWithin c.nrow c.data c.dist c.big)
    (hN : 0 < c.nrow) (hT : 0 < c.reqThreads) (hlt : c.nrow < 4294967296) {sched : Nat → List Nat}
    (hc : ∀ i, Complete (Partition.effThreads c.reqThreads c.nrow)
      (Kmeans.threadRows c.nrow c.reqThreads) (sched i)) (hmi : 1 ≤ c.maxIters) (hw : Wf M [] [] live s)
    (hr : Ready c M s) (hf : Fresh c s) (e : iterations c sched s = .ok s') :
    s'.final = s.final ∧ (∀ f, (s.final f).isSome → members c.nrow s'.assign f = members c.nrow s.assign f) ∧
    ∀ p nd0, s.hc p = some nd0 → ∃ nd L, s'.hc p = some nd ∧ nd.zero = nd0.zero ∧ nd.one = nd0.one ∧
      TwoMeans c.dist c.data c.tol c.maxIters (members c.nrow s.part p) (nd0.cl.means 0) (nd0.cl.means 1) L ∧
      members c.nrow s'.assign nd.zero = L ∧ members c.nrow s'.assign nd.one = members c.nrow s.part p \ L := by
  unfold iterations at e
  obtain ⟨m, hm⟩ : ∃ m, c.maxIters = m + 1 := ⟨c.maxIters - 1, by omega⟩
  rw [hm, List.range_succ_eq_map] at e
  obtain ⟨s1, e1, h1⟩ := iteration_ok hw hr hN hT hlt (hc 0)
  simp only [forEach, e1] at e
  have ht := track_iters hbig hN hT hlt hc _ s1 s' 0 (h1.wf hw) h1.settled
    (track_first hw hr (h1.settled.ready hbig) h1 hf) e
  rw [List.length_map, List.length_range, Nat.zero_add] at ht
  refine ⟨ht.final, ht.closed, fun p nd0 hp0 => ?_⟩
  obtain ⟨nd, hp, hz, ho, T, hTm, hT1, hT2, hT3, hL, hL'⟩ := ht.nodes p nd0 hp0
  refine ⟨nd, _, hp, hz, ho, ⟨T, by omega, rfl, ?_, hT3⟩, hL, hL'⟩
  cases hcv : nd.conv with
  | true => exact Or.inr (hT2.1 hcv)
  | false => left; rw [hT1 hcv, hm]

end

/-! ### Splitting -/

/-- The scan finds the first two rows of the left side among those it looks at. -/
theorem scan_left_first (a : Nat → Nat) (z o : Nat) (az ao : Bool) : ∀ (vs dn : List Nat) (x : Scan),
    x.l0c = x.l0.isSome → x.l1c = x.l1.isSome → x.l0 = (dn.filter fun v => a v = z)[0]? →
      x.l1 = (dn.filter fun v => a v = z)[1]? →
    ∃ pre suf, pre ++ suf = dn ++ vs ∧
      (scanRows a z o az ao vs x).l0 = (pre.filter fun v => a v = z)[0]? ∧
      (scanRows a z o az ao vs x).l1 = (pre.filter fun v => a v = z)[1]? := by
  intro vs
  induction vs with
  | nil => intro dn x _ _ h2 h3; exact ⟨dn, [], rfl, h2, h3⟩
  | cons v vs ih =>
    intro dn x h0 h1 h2 h3
    have hstop : ∀ y : Scan, y.l0 = x.l0 → y.l1 = x.l1 → ∃ pre suf, pre ++ suf = dn ++ v :: vs ∧
        y.l0 = (pre.filter fun v => a v = z)[0]? ∧ y.l1 = (pre.filter fun v => a v = z)[1]? :=
      fun y e0 e1 => ⟨dn, v :: vs, rfl, e0.trans h2, e1.trans h3⟩
    have hfil : (dn ++ [v]).filter (fun v => a v = z)
        = dn.filter (fun v => a v = z) ++ if a v = z then [v] else [] := by
      rw [List.filter_append]
      by_cases e : a v = z <;> simp [e]
    have hhere : ∀ y : Scan,
        y.l0 = (dn.filter (fun v => a v = z) ++ if a v = z then [v] else [])[0]? →
        y.l1 = (dn.filter (fun v => a v = z) ++ if a v = z then [v] else [])[1]? →
        ∃ pre suf, pre ++ suf = dn ++ v :: vs ∧
          y.l0 = (pre.filter fun v => a v = z)[0]? ∧ y.l1 = (pre.filter fun v => a v = z)[1]? := by
      intro y e2 e3
      rw [← hfil] at e2 e3
      exact ⟨dn ++ [v], vs, by simp, e2, e3⟩
    have hgo : ∀ y : Scan, y.l0c = y.l0.isSome → y.l1c = y.l1.isSome →
        y.l0 = (dn.filter (fun v => a v = z) ++ if a v = z then [v] else [])[0]? →
        y.l1 = (dn.filter (fun v => a v = z) ++ if a v = z then [v] else [])[1]? →
        ∃ pre suf, pre ++ suf = dn ++ v :: vs ∧
          (scanRows a z o az ao vs y).l0 = (pre.filter fun v => a v = z)[0]? ∧
          (scanRows a z o az ao vs y).l1 = (pre.filter fun v => a v = z)[1]? := by
      intro y e0 e1 e2 e3
      rw [← hfil] at e2 e3
      obtain ⟨pre, suf, f1, f2⟩ := ih (dn ++ [v]) y e0 e1 e2 e3
      exact ⟨pre, suf, by rw [f1]; simp, f2⟩
    unfold scanRows
    split
    · exact hstop x rfl rfl
    · by_cases e : a v = z
      · rw [if_pos e]
        rw [if_pos e] at hgo hhere
        cases hl0 : x.l0 with
        | none =>
          rw [hl0] at h0 h2
          have hnil : dn.filter (fun v => a v = z) = [] := by
            rw [eq_comm, List.getElem?_eq_none_iff] at h2
            exact List.eq_nil_of_length_eq_zero (by omega)
          rw [hnil] at h3 hgo
          simp only [Option.isSome_none] at h0
          rw [if_pos (by rw [h0]; rfl)]
          refine hgo _ ?_ ?_ ?_ ?_
          exacts [rfl, h1, rfl, h3]
        | some w =>
          rw [hl0] at h0 h2
          simp only [Option.isSome_some] at h0
          rw [if_neg (by rw [h0]; simp)]
          have hlen : 0 < (dn.filter fun v => a v = z).length := by
            by_contra hh
            rw [List.getElem?_eq_none (by omega)] at h2
            cases h2
          have k0 : ∀ t : List Nat, (dn.filter (fun v => a v = z) ++ t)[0]? = some w := by
            intro t
            rw [List.getElem?_append_left hlen]; exact h2.symm
          cases hl1 : x.l1 with
          | none =>
            rw [hl1] at h1 h3
            simp only [Option.isSome_none] at h1
            have hlen2 : (dn.filter fun v => a v = z).length = 1 := by
              rw [eq_comm, List.getElem?_eq_none_iff] at h3
              omega
            have k1 : (dn.filter (fun v => a v = z) ++ [v])[1]? = some v := by
              rw [List.getElem?_append_right (by omega), hlen2]; rfl
            rw [if_pos (by rw [h1]; rfl)]
            dsimp only
            split
            · refine hhere _ ?_ ?_
              exacts [(k0 _).symm, k1.symm]
            · refine hgo _ ?_ ?_ ?_ ?_
              exacts [h0, rfl, (k0 _).symm, k1.symm]
          | some w1 =>
            rw [hl1] at h1 h3
            simp only [Option.isSome_some] at h1
            rw [if_neg (by rw [h1]; simp)]
            have hlen2 : 1 < (dn.filter fun v => a v = z).length := by
              by_contra hh
              rw [List.getElem?_eq_none (by omega)] at h3
              cases h3
            refine hgo x (by rw [h0, hl0]; rfl) (by rw [h1, hl1]; rfl) (by rw [k0, hl0]) ?_
            rw [List.getElem?_append_left hlen2, hl1, h3]
      · rw [if_neg e]
        rw [if_neg e, List.append_nil] at hgo
        split
        · split
          · refine hgo _ ?_ ?_ ?_ ?_; exacts [h0, h1, h2, h3]
          · split
            · dsimp only
              split
              · exact hstop _ rfl rfl
              · refine hgo _ ?_ ?_ ?_ ?_; exacts [h0, h1, h2, h3]
            · refine hgo _ ?_ ?_ ?_ ?_; exacts [h0, h1, h2, h3]
        · refine hgo _ ?_ ?_ ?_ ?_; exacts [h0, h1, h2, h3]

/-- The scan finds the first two rows of the right side among those it looks at. -/
theorem scan_right_first (a : Nat → Nat) (z o : Nat) (hzo : z ≠ o) (az ao : Bool) : ∀ (vs dn : List Nat) (x : Scan),
    x.r0c = x.r0.isSome → x.r1c = x.r1.isSome → x.r0 = (dn.filter fun v => a v = o)[0]? →
      x.r1 = (dn.filter fun v => a v = o)[1]? →
    ∃ pre suf, pre ++ suf = dn ++ vs ∧
      (scanRows a z o az ao vs x).r0 = (pre.filter fun v => a v = o)[0]? ∧
      (scanRows a z o az ao vs x).r1 = (pre.filter fun v => a v = o)[1]? := by
  intro vs
  induction vs with
  | nil => intro dn x _ _ h2 h3; exact ⟨dn, [], rfl, h2, h3⟩
  | cons v vs ih =>
    intro dn x h0 h1 h2 h3
    have hstop : ∀ y : Scan, y.r0 = x.r0 → y.r1 = x.r1 → ∃ pre suf, pre ++ suf = dn ++ v :: vs ∧
        y.r0 = (pre.filter fun v => a v = o)[0]? ∧ y.r1 = (pre.filter fun v => a v = o)[1]? :=
      fun y e0 e1 => ⟨dn, v :: vs, rfl, e0.trans h2, e1.trans h3⟩
    have hfil : (dn ++ [v]).filter (fun v => a v = o)
        = dn.filter (fun v => a v = o) ++ if a v = o then [v] else [] := by
      rw [List.filter_append]
      by_cases e : a v = o <;> simp [e]
    have hhere : ∀ y : Scan,
        y.r0 = (dn.filter (fun v => a v = o) ++ if a v = o then [v] else [])[0]? →
        y.r1 = (dn.filter (fun v => a v = o) ++ if a v = o then [v] else [])[1]? →
        ∃ pre suf, pre ++ suf = dn ++ v :: vs ∧
          y.r0 = (pre.filter fun v => a v = o)[0]? ∧ y.r1 = (pre.filter fun v => a v = o)[1]? := by
      intro y e2 e3
      rw [← hfil] at e2 e3
      exact ⟨dn ++ [v], vs, by simp, e2, e3⟩
    have hgo : ∀ y : Scan, y.r0c = y.r0.isSome → y.r1c = y.r1.isSome →
        y.r0 = (dn.filter (fun v => a v = o) ++ if a v = o then [v] else [])[0]? →
        y.r1 = (dn.filter (fun v => a v = o) ++ if a v = o then [v] else [])[1]? →
        ∃ pre suf, pre ++ suf = dn ++ v :: vs ∧
          (scanRows a z o az ao vs y).r0 = (pre.filter fun v => a v = o)[0]? ∧
          (scanRows a z o az ao vs y).r1 = (pre.filter fun v => a v = o)[1]? := by
      intro y e0 e1 e2 e3
      rw [← hfil] at e2 e3
      obtain ⟨pre, suf, f1, f2⟩ := ih (dn ++ [v]) y e0 e1 e2 e3
      exact ⟨pre, suf, by rw [f1]; simp, f2⟩
    unfold scanRows
    split
    · exact hstop x rfl rfl
    · by_cases ez : a v = z
      · have e : a v ≠ o := fun h => hzo (ez.symm.trans h)
        rw [if_pos ez]
        rw [if_neg e, List.append_nil] at hgo
        split
        · refine hgo _ ?_ ?_ ?_ ?_; exacts [h0, h1, h2, h3]
        · split
          · dsimp only
            split
            · exact hstop _ rfl rfl
            · refine hgo _ ?_ ?_ ?_ ?_; exacts [h0, h1, h2, h3]
          · refine hgo _ ?_ ?_ ?_ ?_; exacts [h0, h1, h2, h3]
      · rw [if_neg ez]
        by_cases e : a v = o
        · rw [if_pos e]
          rw [if_pos e] at hgo hhere
          cases hl0 : x.r0 with
          | none =>
            rw [hl0] at h0 h2
            have hnil : dn.filter (fun v => a v = o) = [] := by
              rw [eq_comm, List.getElem?_eq_none_iff] at h2
              exact List.eq_nil_of_length_eq_zero (by omega)
            rw [hnil] at h3 hgo
            simp only [Option.isSome_none] at h0
            rw [if_pos (by rw [h0]; rfl)]
            refine hgo _ ?_ ?_ ?_ ?_
            exacts [rfl, h1, rfl, h3]
          | some w =>
            rw [hl0] at h0 h2
            simp only [Option.isSome_some] at h0
            rw [if_neg (by rw [h0]; simp)]
            have hlen : 0 < (dn.filter fun v => a v = o).length := by
              by_contra hh
              rw [List.getElem?_eq_none (by omega)] at h2
              cases h2
            have k0 : ∀ t : List Nat, (dn.filter (fun v => a v = o) ++ t)[0]? = some w := by
              intro t
              rw [List.getElem?_append_left hlen]; exact h2.symm
            cases hl1 : x.r1 with
            | none =>
              rw [hl1] at h1 h3
              simp only [Option.isSome_none] at h1
              have hlen2 : (dn.filter fun v => a v = o).length = 1 := by
                rw [eq_comm, List.getElem?_eq_none_iff] at h3
                omega
              have k1 : (dn.filter (fun v => a v = o) ++ [v])[1]? = some v := by
                rw [List.getElem?_append_right (by omega), hlen2]; rfl
              rw [if_pos (by rw [h1]; rfl)]
              dsimp only
              split
              · refine hhere _ ?_ ?_
                exacts [(k0 _).symm, k1.symm]
              · refine hgo _ ?_ ?_ ?_ ?_
                exacts [h0, rfl, (k0 _).symm, k1.symm]
            | some w1 =>
              rw [hl1] at h1 h3
              simp only [Option.isSome_some] at h1
              rw [if_neg (by rw [h1]; simp)]
              have hlen2 : 1 < (dn.filter fun v => a v = o).length := by
                by_contra hh
                rw [List.getElem?_eq_none (by omega)] at h3
                cases h3
              refine hgo x (by rw [h0, hl0]; rfl) (by rw [h1, hl1]; rfl) (by rw [k0, hl0]) ?_
              rw [List.getElem?_append_left hlen2, hl1, h3]
        · rw [if_neg e]
          rw [if_neg e, List.append_nil] at hgo
          refine hgo _ ?_ ?_ ?_ ?_; exacts [h0, h1, h2, h3]

/-- The first two rows of a cluster in a list of all rows are its two lowest-numbered rows. -/
theorem lowestTwo_of_pre {N i : Nat} {a : Nat → Nat} {pre suf : List Nat} (h : pre ++ suf = List.range N) {x y : Nat}
    (hx : (pre.filter fun v => a v = i)[0]? = some x) (hy : (pre.filter fun v => a v = i)[1]? = some y) :
    LowestTwo (members N a i) x y := by
  have hs : ((List.range N).filter fun v => a v = i).Pairwise (· < ·) := List.pairwise_lt_range.filter _
  have hm : ∀ v, v ∈ members N a i ↔ v ∈ (List.range N).filter fun v => a v = i := by
    intro v
    rw [mem_members, List.mem_filter, List.mem_range]
    simp
  rw [← h, List.filter_append] at hs hm
  cases hl : pre.filter fun v => a v = i with
  | nil => rw [hl] at hx; cases hx
  | cons x' l =>
    cases l with
    | nil => rw [hl] at hy; cases hy
    | cons y' l =>
      rw [hl] at hx hy hs hm
      cases hx; cases hy
      rw [List.cons_append, List.cons_append] at hs hm
      rw [List.pairwise_cons, List.pairwise_cons] at hs
      refine ⟨(hm _).2 (by simp), (hm _).2 (by simp), hs.1 y (by simp), ?_⟩
      intro v hv
      rcases List.mem_cons.1 ((hm v).1 hv) with e | e
      · exact Or.inl e
      · rcases List.mem_cons.1 e with e | e
        · right; omega
        · right; exact Nat.le_of_lt (hs.2.1 v e)

/-- Parts of the state that flags do not touch. -/
structure Same (s s' : St R n) : Prop where
  hc : s'.hc = s.hc
  assign : s'.assign = s.assign
  counts : s'.counts = s.counts
  final : s'.final = s.final

theorem activate_same {s s' : St R n} {i : Nat} (e : s.activate i = .ok s') : Same s s' := by
  unfold St.activate at e
  split at e
  · cases e
  · cases e; exact ⟨rfl, rfl, rfl, rfl⟩

theorem deactivate_same {s s' : St R n} {i : Nat} (e : s.deactivate i = .ok s') : Same s s' := by
  unfold St.deactivate at e
  split at e
  · cases e
  · cases e; exact ⟨rfl, rfl, rfl, rfl⟩

/-- A side of a partition in `ids`. -/
def SideIn (s1 : St R n) (ids : List Nat) (f : Nat) : Prop :=
  ∃ p nd j, p ∈ ids ∧ s1.hc p = some nd ∧ nd.side j = f

/-- What is known of a partition that splitting creates. -/
def NewPart (c : Cfg R D n) (s1 : St R n) (ids : List Nat) (p : Nat) (nd : Node R n) : Prop :=
  nd.conv = false ∧ SideIn s1 ids p ∧ c.minSize ≤ (members c.nrow s1.assign p).card ∧
    ∃ x y, LowestTwo (members c.nrow s1.assign p) x y ∧ nd.cl.means 0 = c.data x ∧ nd.cl.means 1 = c.data y

/-- The states while partitions are treated. -/
structure Splitting (c : Cfg R D n) (s1 : St R n) (ids : List Nat) (s : St R n) : Prop where
  assign : s.assign = s1.assign
  counts : s.counts = s1.counts
  old : ∀ p, p ∈ ids → s.hc p = s1.hc p
  new : ∀ p nd, p ∉ ids → s.hc p = some nd → NewPart c s1 ids p nd
  final : ∀ f v, s.final f = some v → s1.final f = some v ∨ SideIn s1 ids f

theorem retire_spec {c : Cfg R D n} {s1 : St R n} {ids : List Nat} {s s' : St R n} {id : Nat} {v : Row R n} {b : Bool}
    (h : Splitting c s1 ids s) (hid : SideIn s1 ids id) (e : retire c id v s = .ok (b, s')) :
    Splitting c s1 ids s' ∧ (b = false → ∃ k : Int, (s1.counts[id]? : Option Int) = some k ∧ (c.minSize : Int) ≤ k) := by
  unfold retire at e
  split at e
  · cases e
  · rename_i cnt hcnt
    split at e
    · split at e
      · cases e
      · rename_i s2 e2
        have hs := deactivate_same e2
        cases e
        refine ⟨⟨hs.assign.trans h.assign, hs.counts.trans h.counts, ?_, ?_, ?_⟩, fun hb => (by cases hb)⟩
        · intro p hp
          show s2.hc p = _
          rw [hs.hc]; exact h.old p hp
        · intro p nd hp hnd
          refine h.new p nd hp ?_
          rw [← hs.hc]; exact hnd
        · intro f w hf
          dsimp only at hf
          by_cases hfi : f = id
          · subst hfi; exact Or.inr hid
          · rw [Function.update_of_ne hfi, hs.final] at hf
            exact h.final f w hf
    · rename_i hno
      cases e
      refine ⟨h, fun _ => ?_⟩
      unfold St.getCount at hcnt
      rw [h.counts] at hcnt
      cases hk : s1.counts[id]? with
      | none => rw [hk] at hcnt; cases hcnt
      | some k =>
        rw [hk] at hcnt
        cases hcnt
        refine ⟨_, rfl, ?_⟩
        by_contra hc
        exact hno (Or.inl (by omega))

theorem spawnOne_spec [Zero R] {c : Cfg R D n} {s1 : St R n} {ids : List Nat} {s s' : St R n} {id : Nat}
    {a b : Option Nat} (h : Splitting c s1 ids s) (hid : SideIn s1 ids id) (hno : id ∉ ids)
    (hab : ∀ x y, a = some x → b = some y → c.minSize ≤ (members c.nrow s1.assign id).card ∧
      LowestTwo (members c.nrow s1.assign id) x y) (e : spawnOne c id a b s = .ok s') : Splitting c s1 ids s' := by
  unfold spawnOne at e
  split at e
  · rename_i x y
    dsimp only at e
    split at e
    · cases e
    · rename_i s2 e2
      have h2 := activate_same e2
      have h3 := activate_same e
      obtain ⟨hm, hxy⟩ := hab x y rfl rfl
      have hhc : s'.hc = Function.update s.hc id (some
          { cl := ((Clusters.empty).setMean (c.data x) 0).setMean (c.data y) 1
            zero := s.gen.split.1.1, one := s.gen.split.1.2, conv := false }) := by
        rw [h3.hc, h2.hc]; rfl
      refine ⟨(h3.assign.trans h2.assign).trans h.assign, (h3.counts.trans h2.counts).trans h.counts, ?_, ?_, ?_⟩
      · intro p hp
        rw [hhc, Function.update_of_ne (fun e : p = id => hno (e ▸ hp))]
        exact h.old p hp
      · intro p nd hp hnd
        rw [hhc] at hnd
        by_cases hpi : p = id
        · subst hpi
          rw [Function.update_self] at hnd
          cases hnd
          refine ⟨rfl, hid, hm, x, y, hxy, ?_, ?_⟩ <;> simp [Clusters.setMean]
        · rw [Function.update_of_ne hpi] at hnd
          exact h.new p nd hp hnd
      · intro f v hf
        rw [h3.final, h2.final] at hf
        exact h.final f v hf
  · cases e; exact h

theorem innerStep_spec [Zero R] {c : Cfg R D n} {s1 : St R n} {ids : List Nat} {s s' : St R n} {id : Nat}
    (hcnt : ∀ (i : Nat) (k : Int), s1.counts[i]? = some k → k = ((members c.nrow s1.assign i).card : Int))
    (hsides : ∀ p nd, p ∈ ids → s1.hc p = some nd → nd.zero ∉ ids ∧ nd.one ∉ ids ∧ nd.zero ≠ nd.one)
    (h : Splitting c s1 ids s) (hid : id ∈ ids) (e : innerStep c s id = .ok s') : Splitting c s1 ids s' := by
  unfold innerStep at e
  split at e
  · cases e
  · rename_i nd hnd
    rw [h.old id hid] at hnd
    obtain ⟨hz, ho, hne⟩ := hsides id nd hid hnd
    have sz : SideIn s1 ids nd.zero := ⟨id, nd, 0, hid, hnd, rfl⟩
    have so : SideIn s1 ids nd.one := ⟨id, nd, 1, hid, hnd, rfl⟩
    split at e
    · cases e
    · rename_i lc s2 e1
      obtain ⟨h2, m2⟩ := retire_spec h sz e1
      split at e
      · cases e
      · rename_i rc s3 e2
        obtain ⟨h3, m3⟩ := retire_spec h2 so e2
        split at e
        · cases e
        · split at e
          · cases e
          · split at e
            · rename_i actZ actO _ _
              unfold spawn at e
              split at e
              · cases e
              · rename_i s4 e4
                rw [h3.assign] at e4 e
                refine spawnOne_spec (spawnOne_spec h3 sz hz ?_ e4) so ho ?_ e
                · intro x y hx hy
                  cases lc with
                  | true =>
                    rw [(scan_left_done _ _ _ _ _ _ _ rfl rfl).1] at hx
                    cases hx
                  | false =>
                    obtain ⟨k, k1, k2⟩ := m2 rfl
                    have := hcnt _ _ k1
                    refine ⟨by omega, ?_⟩
                    obtain ⟨pre, suf, f1, f2, f3⟩ := scan_left_first s1.assign nd.zero nd.one actZ actO
                      (List.range c.nrow) [] { l0c := false, l1c := false, r0c := rc, r1c := rc } rfl rfl rfl rfl
                    rw [f2] at hx
                    rw [f3] at hy
                    exact lowestTwo_of_pre f1 hx hy
                · intro x y hx hy
                  cases rc with
                  | true =>
                    rw [(scan_right_done _ _ _ _ _ _ _ rfl rfl).1] at hx
                    cases hx
                  | false =>
                    obtain ⟨k, k1, k2⟩ := m3 rfl
                    have := hcnt _ _ k1
                    refine ⟨by omega, ?_⟩
                    obtain ⟨pre, suf, f1, f2, f3⟩ := scan_right_first s1.assign nd.zero nd.one hne actZ actO
                      (List.range c.nrow) [] { l0c := lc, l1c := lc, r0c := false, r1c := false } rfl rfl rfl rfl
                    rw [f2] at hx
                    rw [f3] at hy
                    exact lowestTwo_of_pre f1 hx hy
            · cases e

theorem forEach_ok_inv {σ α : Type _} {f : σ → α → Res σ} {P : σ → Prop} : ∀ (l : List α) (s s' : σ),
    (∀ s s' a, a ∈ l → P s → f s a = .ok s' → P s') → P s → forEach f l s = .ok s' → P s' := by
  intro l
  induction l with
  | nil => intro s s' _ h e; cases e; exact h
  | cons a l ih =>
    intro s s' hf h e
    unfold forEach at e
    split at e
    · cases e
    · rename_i s1 e1
      exact ih s1 s' (fun s s' b hb => hf s s' b (List.mem_cons_of_mem _ hb)) (hf s s1 a (by simp) h e1) e

/-- After the removals only new partitions are left. -/
theorem removal_spec {c : Cfg R D n} {s1 : St R n} {ids : List Nat} : ∀ (l : List Nat) (s s' : St R n),
    (∀ p nd, p ∉ l → s.hc p = some nd → NewPart c s1 ids p nd) → forEach removeStep l s = .ok s' →
    (∀ p nd, s'.hc p = some nd → NewPart c s1 ids p nd) ∧ s'.assign = s.assign ∧ s'.final = s.final := by
  intro l
  induction l with
  | nil => intro s s' h e; cases e; exact ⟨fun p nd => h p nd (by simp), rfl, rfl⟩
  | cons a l ih =>
    intro s s' h e
    unfold forEach at e
    split at e
    · cases e
    · rename_i s2 e2
      unfold removeStep St.eraseNode at e2
      split at e2
      · cases e2
      · rename_i s3 e3
        split at e2
        · cases e2
        · rename_i s4 e4
          have hs := deactivate_same e4
          split at e3
          · cases e3
            cases e2
            have hhc : s4.hc = Function.update s.hc a none := hs.hc
            obtain ⟨k1, k2, k3⟩ := ih _ s' (by
              intro p nd hp hnd
              dsimp only at hnd
              rw [hhc] at hnd
              by_cases hpa : p = a
              · subst hpa; rw [Function.update_self] at hnd; cases hnd
              · rw [Function.update_of_ne hpa] at hnd
                exact h p nd (by simp [hpa, hp]) hnd) e
            exact ⟨k1, k2.trans hs.assign, k3.trans hs.final⟩
          · cases e3

/-- What splitting does. -/
theorem initSplits_spec [Field R] {c : Cfg R D n} {M : Nat} {live : Finset Nat} {s s' : St R n}
    (hw : Wf M [] [] live s) (hs : Settled c.nrow M c.data s) (e : initSplits c s = .ok s') :
    s'.assign = s.assign ∧ s'.part = s.assign ∧ (∀ p nd, s'.hc p = some nd → NewPart c s s.keys p nd) ∧
      ∀ f v, s'.final f = some v → s.final f = some v ∨ SideIn s s.keys f := by
  unfold initSplits at e
  dsimp only at e
  split at e
  · cases e
  · rename_i s2 e2
    split at e
    · cases e
    · rename_i s3 e3
      cases e
      have h2 : Splitting c s s.keys s2 := by
        refine forEach_ok_inv (P := Splitting c s s.keys) s.keys s s2 ?_ ?_ e2
        · intro x x' p hp hx ex
          refine innerStep_spec ?_ ?_ hx hp ex
          · intro i k hk
            have hi : i < M := by
              by_contra hh
              rw [List.getElem?_eq_none (by rw [hw.lenC]; omega)] at hk
              cases hk
            rw [hs.counts i hi] at hk
            exact (Option.some.inj hk).symm
          · intro p nd hp hnd
            have hnk : ∀ j, nd.side j ∉ s.keys := by
              intro j hj
              obtain ⟨nd', h1⟩ := (mem_keys' hw).1 hj
              rw [hw.sideNone p nd j ⟨hnd, by simp⟩] at h1
              cases h1
            exact ⟨hnk 0, hnk 1, hw.sidesNe p nd ⟨hnd, by simp⟩⟩
        · refine ⟨rfl, rfl, fun _ _ => rfl, ?_, fun f v hf => Or.inl hf⟩
          intro p nd hp hnd
          exact absurd ((mem_keys' hw).2 ⟨nd, hnd⟩) hp
      obtain ⟨k1, k2, k3⟩ := removal_spec (c := c) (s1 := s) (ids := s.keys) s.keys s2 s3
        (fun p nd hp hnd => h2.new p nd hp hnd) e3
      refine ⟨k2.trans h2.assign, k2.trans h2.assign, k1, ?_⟩
      intro f v hf
      dsimp only at hf
      rw [k3] at hf
      exact h2.final f v hf

/-! ### The whole run -/

/-- The starting centroids of a partition: `m0` and `m1` for all rows, and the two lowest-numbered rows of a side of an
earlier split. -/
def Origin [Field R] [LinearOrder R] [LinearOrder D] (c : Cfg R D n) (m0 m1 : Row R n) (P : Finset Nat)
    (a b : Row R n) : Prop :=
  (P = Finset.range c.nrow ∧ a = m0 ∧ b = m1) ∨
  (Bisected c.dist c.data c.tol c.maxIters c.minSize c.nrow m0 m1 P ∧ c.minSize ≤ P.card ∧
    ∃ x y, LowestTwo P x y ∧ a = c.data x ∧ b = c.data y)

/-- What holds at the beginning of a round. -/
structure Tree [Field R] [LinearOrder R] [LinearOrder D] (c : Cfg R D n) (m0 m1 : Row R n) (s : St R n) : Prop where
  fresh : Fresh c s
  opened : ∀ p nd, s.hc p = some nd → Origin c m0 m1 (members c.nrow s.part p) (nd.cl.means 0) (nd.cl.means 1)
  closed : ∀ f, (s.final f).isSome →
    Bisected c.dist c.data c.tol c.maxIters c.minSize c.nrow m0 m1 (members c.nrow s.assign f)

/-- What holds after the iterations of a round. -/
structure Halved [Field R] [LinearOrder R] [LinearOrder D] (c : Cfg R D n) (m0 m1 : Row R n) (s : St R n) : Prop where
  sides : ∀ p nd j, s.hc p = some nd →
    Bisected c.dist c.data c.tol c.maxIters c.minSize c.nrow m0 m1 (members c.nrow s.assign (nd.side j))
  closed : ∀ f, (s.final f).isSome →
    Bisected c.dist c.data c.tol c.maxIters c.minSize c.nrow m0 m1 (members c.nrow s.assign f)

section
variable [Field R] [LinearOrder R] [LinearOrder D] {c : Cfg R D n} {K M : Nat} {m0 m1 : Row R n}

/-- A split of a partition is a step of bisecting. -/
theorem Origin.split {P L S : Finset Nat} {a b : Row R n} (h : Origin c m0 m1 P a b)
    (ht : TwoMeans c.dist c.data c.tol c.maxIters P a b L) (hS : S = L ∨ S = P \ L) :
    Bisected c.dist c.data c.tol c.maxIters c.minSize c.nrow m0 m1 S := by
  rcases h with ⟨rfl, rfl, rfl⟩ | ⟨h1, h2, x, y, h3, rfl, rfl⟩
  · exact .first ht hS
  · exact .again h1 h2 h3 ht hS

theorem Tree.halved {live : Finset Nat} {s s' : St R n} (h : Tree c m0 m1 s)
    (hbig : MeansWithin c.nrow c.data c.dist c.big)
    (hN : 0 < c.nrow) (hT : 0 < c.reqThreads) (hlt : c.nrow < 4294967296) {sched : Nat → List Nat}
    (hc : ∀ i, Complete (Partition.effThreads c.reqThreads c.nrow)
      (Kmeans.threadRows c.nrow c.reqThreads) (sched i)) (hmi : 1 ≤ c.maxIters) (hw : Wf M [] [] live s)
    (hr : Ready c M s) (hro : RoundOk c M s s') (e : iterations c sched s = .ok s') : Halved c m0 m1 s' := by
  obtain ⟨h1, h2, h3⟩ := round_twoMeans hbig hN hT hlt hc hmi hw hr h.fresh e
  constructor
  · intro p nd j hp
    obtain ⟨nd0, hp0, _⟩ := shape_open hro.shape hp
    obtain ⟨nd', L, k1, k2, k3, k4, k5, k6⟩ := h3 p nd0 hp0
    rw [hp] at k1
    cases k1
    refine (h.opened p nd0 hp0).split k4 ?_
    rcases fin_two j with rfl | rfl
    · exact Or.inl k5
    · exact Or.inr k6
  · intro f hf
    rw [h1] at hf
    rw [h2 f hf]
    exact h.closed f hf

theorem Halved.tree {live : Finset Nat} {s s' : St R n} (h : Halved c m0 m1 s) (hw : Wf M [] [] live s)
    (hs : Settled c.nrow M c.data s) (e : initSplits c s = .ok s') : Tree c m0 m1 s' := by
  obtain ⟨h1, h2, h3, h4⟩ := initSplits_spec hw hs e
  have hside : ∀ f, SideIn s s.keys f →
      Bisected c.dist c.data c.tol c.maxIters c.minSize c.nrow m0 m1 (members c.nrow s.assign f) := by
    rintro f ⟨p, nd, j, _, hp, rfl⟩
    exact h.sides p nd j hp
  refine ⟨⟨fun p nd hp => (h3 p nd hp).1, fun r _ => by rw [h1, h2]⟩, ?_, ?_⟩
  · intro p nd hp
    obtain ⟨-, k2, k3, x, y, k4, k5, k6⟩ := h3 p nd hp
    rw [h2]
    exact Or.inr ⟨hside p k2, k3, x, y, k4, k5, k6⟩
  · intro f hf
    obtain ⟨v, hv⟩ := Option.isSome_iff_exists.1 hf
    rw [h1]
    rcases h4 f v hv with k | k
    · exact h.closed f (by rw [k]; rfl)
    · exact hside f k

theorem loop_halved (hbig : MeansWithin c.nrow c.data c.dist c.big)
    (hN : 0 < c.nrow) (hT : 0 < c.reqThreads) (hlt : c.nrow < 4294967296)
    {sched : Nat → Nat → List Nat}
    (hc : ∀ t i, Complete (Partition.effThreads c.reqThreads c.nrow)
      (Kmeans.threadRows c.nrow c.reqThreads) (sched t i))
    (hK : c.halfK * 2 = K) (hmin : 2 ≤ c.minSize) (hit : 1 ≤ c.maxIters) :
    ∀ (fuel t : Nat) (d : Int) (live : Finset Nat) (s s' : St R n), Bd .h c K M t d live s → Tree c m0 m1 s →
      loop c sched fuel t s = .ok (some s') → Halved c m0 m1 s' := by
  intro fuel
  induction fuel with
  | zero => intro t d live s s' _ _ e; cases e
  | succ fuel ih =>
    intro t d live s s' h ht e
    obtain ⟨s1, e1, h1⟩ := iters_ok (c := c) hbig hN hT hlt (hc t) (List.range c.maxIters) s (by
      intro hh
      have := congrArg List.length hh
      rw [List.length_range] at this
      simp at this
      omega) h.wf h.ready
    have hk := shape_keys h1.hsize h1.shape
    have hw1 := h1.wf h.wf
    have hh := ht.halved hbig hN hT hlt (hc t) hit h.wf h.ready h1 e1
    unfold loop iterations at e
    simp only [e1] at e
    by_cases hcap : c.atCap s1 = true
    · rw [if_pos hcap] at e
      cases e
      exact hh
    · rw [if_neg hcap] at e
      obtain ⟨s2, e2, _, _, live2, d2, _, _, _, _, hd, hb⟩ := initSplits_ok hw1 (by rw [hk]; exact h.start) hbig h1.settled
        (fun hm => h1.fin (h.fin hm)) (by rw [h1.ncl]; exact h.ncl) (by rw [hk]; exact h.q) hK hmin
        (by intro hm; cases hm) (by
          unfold Cfg.atCap at hcap
          simp only [decide_eq_true_eq] at hcap
          omega)
      have ht2 := hh.tree hw1 h1.settled e2
      simp only [e2] at e
      by_cases hk2 : s2.keys = []
      · rw [if_pos hk2] at e
        cases e
        refine ⟨fun p nd j hp => ?_, ht2.closed⟩
        have hmem := (mem_keys' (hd hk2).wf).2 ⟨nd, hp⟩
        rw [hk2] at hmem
        cases hmem
      · rw [if_neg hk2] at e
        exact ih (t + 1) d2 live2 s2 s' (hb hk2) ht2 e

theorem started_tree (a b : Row R n) : Tree c a b (started c a b) := by
  refine ⟨⟨?_, fun _ _ => rfl⟩, ?_, ?_⟩
  · intro p nd hp
    by_cases e : p = 0
    · subst e
      simp only [started, Function.update_self, Option.some.injEq] at hp
      rw [← hp]
    · simp [started, e] at hp
  · intro p nd hp
    by_cases e : p = 0
    · subst e
      simp only [started, Function.update_self, Option.some.injEq] at hp
      rw [← hp]
      refine Or.inl ⟨?_, ?_, ?_⟩
      · ext r
        rw [mem_members, Finset.mem_range]
        simp [started]
      · simp [Clusters.setMean]
      · simp [Clusters.setMean]
    · simp [started, e] at hp
  · intro f hf
    simp [started] at hf

end

/-- The first two centroids. -/
def startCents (c : Cfg R D n) : HInit R n → Option (Row R n × Row R n)
  | .forgy i j => some (c.data i, c.data j)
  | .given a b => some (a, b)
  | .other => none

/-- In a run that ends normally every cluster arises by bisecting. -/
theorem run_bisected [Field R] [LinearOrder R] [LinearOrder D] {c : Cfg R D n}
    (hbig : MeansWithin c.nrow c.data c.dist c.big)
    (hN : 0 < c.nrow) (hT : 0 < c.reqThreads) (hlt : c.nrow < 4294967296)
    (hk2 : 2 ≤ c.kmax) (hklt : c.kmax < 1073741824) (hmin : 2 ≤ c.minSize) (hmi : 1 ≤ c.maxIters)
    {it : HInit R n} (hit : Startable c it) {m0 m1 : Row R n} (hm : startCents c it = some (m0, m1))
    {sched : Nat → Nat → List Nat}
    (hc : ∀ t i, Complete (Partition.effThreads c.reqThreads c.nrow)
      (Kmeans.threadRows c.nrow c.reqThreads) (sched t i)) {fuel : Nat} {s : St R n}
    (e : run c it sched fuel = .ok (some s)) :
    ∀ f, (s.final f).isSome →
      Bisected c.dist c.data c.tol c.maxIters c.minSize c.nrow m0 m1 (members c.nrow s.assign f) := by
  have hsame : ∀ s0 : St R n, runHinit c it s0 = runHinit c (.given m0 m1) s0 := by
    cases it with
    | forgy i j => intro s0; cases hm; rfl
    | given a b => intro s0; cases hm; rfl
    | other => cases hm
  have hit' : Startable c (.given m0 m1) := by
    cases it with
    | forgy i j => cases hm; exact fun r hr => ⟨hbig.row r hr i hit.1, hbig.row r hr j hit.2⟩
    | given a b => cases hm; exact hit
    | other => cases hm
  obtain ⟨s0, e0, e1⟩ := init_given (c := c) hk2 hklt m0 m1
  obtain ⟨z1, z2, z3, z4, z5, z6⟩ := sizes (c := c) hk2 hklt
  unfold run at e
  simp only [e0, hsame, e1] at e
  split at e
  · cases e
  · cases e
  · rename_i s2 e2
    cases e
    have hh := loop_halved hbig hN hT hlt hc z1 hmin hmi fuel 0 0 _ _ s2
      (started_bd .h hN hk2 hklt m0 m1 hit') (started_tree m0 m1) e2
    intro f hf
    show Bisected _ _ _ _ _ _ _ _ (members c.nrow s2.assign f)
    rcases completeFold s2 f s2.keys s2.final with ⟨p, nd, j, _, h2, h3, _⟩ | ⟨_, h2⟩
    · rw [← h3]
      exact hh.sides p nd j h2
    · have hf' : (completeFinal s2).final f = s2.final f := h2
      rw [hf'] at hf
      exact hh.closed f hf

end Knor.Hclust
