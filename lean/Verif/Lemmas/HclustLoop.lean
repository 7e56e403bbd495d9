import Verif.Lemmas.HclustRun
import Verif.Spec.HierStart

/-! The main loop of hierarchical clustering ends in a consistent state. -/

namespace Knor.Hclust

open Knor Knor.Par Knor.Spec

variable {R D : Type _} {n : Nat}

theorem sub64_one {x : Nat} (h1 : 1 ≤ x) (h2 : x < 18446744073709551616) : sub64 x 1 = x - 1 := by
  unfold sub64 u64
  omega

theorem mem_keys' {M : Nat} {dn orph : List Nat} {live : Finset Nat} {s : St R n}
    (h : Wf M dn orph live s) {p : Nat} : p ∈ s.keys ↔ ∃ nd, s.hc p = some nd := by
  rw [mem_keys]
  constructor
  · exact fun h => h.2
  · rintro ⟨nd, hp⟩; exact ⟨h.keyLt p nd hp, nd, hp⟩

/-- The removal loop: `l` are still to be removed. -/
structure Rem (M : Nat) (ids : List Nat) (live1 : Finset Nat) (s1 : St R n) (l : List Nat)
    (live : Finset Nat) (s : St R n) : Prop where
  wf : Wf M l [] live s
  lnd : l.Nodup
  lsub : ∀ p ∈ l, p ∈ ids
  hc : ∀ p, p ∉ ids → s.hc p = s1.hc p
  final : s.final = s1.final
  assign : s.assign = s1.assign
  counts : s.counts = s1.counts
  liveIff : ∀ i, i ∈ live ↔ i ∈ live1 ∧ (i ∈ ids → i ∈ l)
  card : live.card + ids.length = live1.card + l.length
  ncl : s.ncl + ids.length = s1.ncl + l.length
  maxId : s.gen.maxId = s1.gen.maxId

theorem removal_ok {M : Nat} {ids : List Nat} {live1 : Finset Nat} {s1 : St R n}
    (hw : Wf M ids [] live1 s1) (hnd : ids.Nodup) (hncl : ids.length ≤ s1.ncl)
    (hlt : s1.ncl < 18446744073709551616) :
    ∃ s2 live2, forEach removeStep ids s1 = .ok s2 ∧ Rem M ids live1 s1 [] live2 s2 := by
  have key := forEach_inv (f := removeStep (R := R) (n := n))
    (P := fun l s => ∃ live, Rem M ids live1 s1 l live s) (by
      rintro p l s ⟨live, h⟩
      obtain ⟨hpl, hlnd⟩ := List.nodup_cons.1 h.lnd
      obtain ⟨e, hw', hpL⟩ := removeStep_ok h.wf hpl
      have hpid := h.lsub p (by simp)
      have hc1 := h.ncl
      rw [List.length_cons] at hc1
      refine ⟨_, e, live.erase p, hw', hlnd, fun q hq => h.lsub q (List.mem_cons_of_mem _ hq), ?_,
        h.final, h.assign, h.counts, ?_, ?_, ?_, h.maxId⟩
      · intro q hq
        show Function.update s.hc p none q = _
        rw [Function.update_of_ne (by rintro rfl; exact hq hpid)]
        exact h.hc q hq
      · intro q
        rw [Finset.mem_erase, h.liveIff q, List.mem_cons]
        by_cases hqp : q = p
        · subst hqp; simp [hpid, hpl]
        · simp [hqp]
      · have := h.card
        rw [List.length_cons] at this
        have h3 := Finset.card_erase_of_mem hpL
        have h4 := Finset.card_pos.2 ⟨p, hpL⟩
        omega
      · show sub64 s.ncl 1 + _ = _
        have hsl : l.length + 1 ≤ ids.length := by
          have := (h.lnd.subperm (l₂ := ids) h.lsub).length_le
          rwa [List.length_cons] at this
        rw [sub64_one (by omega) (by omega)]
        omega) ids s1 ⟨live1, hw, hnd, fun p hp => hp, fun _ _ => rfl, rfl, rfl, rfl,
          fun i => ⟨fun h => ⟨h, fun h => h⟩, fun h => h.1⟩, rfl, rfl, rfl⟩
  obtain ⟨s2, e, live2, h⟩ := key
  exact ⟨s2, live2, e, h⟩

/-- What holds at the beginning of a round. -/
structure Bd [Field R] [LT D] (m : Mode) (c : Cfg R D n) (K M t : Nat) (d : Int) (live : Finset Nat)
    (s : St R n) : Prop where
  wf : Wf M [] [] live s
  start : Start m K M t d s.keys live
  ready : Ready c M s
  fin : m = .h → FinMean c.nrow c.data s
  ncl : (s.ncl : Int) + 1 + d = live.card
  q : live.card ≤ s.keys.length + m.bound K M
  pop : ∀ p nd, s.hc p = some nd → ∃ r, r < c.nrow ∧ s.part r = p

/-- What holds when the main loop ends. -/
structure Done [Field R] (m : Mode) (c : Cfg R D n) (K M : Nat) (live : Finset Nat) (s : St R n) : Prop where
  wf : Wf M [] [] live s
  counts : ∀ i, i < M → s.counts[i]? = some (size c.nrow s.assign i : Int)
  fin : m = .h → FinMean c.nrow c.data s
  nodes : ∀ p nd j, s.hc p = some nd → nd.cl.means j = meanOf c.nrow c.data s.assign (nd.side j)
  rows : ∀ r, r < c.nrow → (s.final (s.assign r)).isSome ∨
    ∃ p nd j, s.hc p = some nd ∧ s.assign r = nd.side j
  q : live.card ≤ s.keys.length + m.bound K M

section
variable [Field R] [LT D] {m : Mode} {c : Cfg R D n} {K M t : Nat} {d : Int} {live : Finset Nat} {s : St R n}

theorem shape_keys {s s' : St R n} (h1 : s'.hsize = s.hsize) (h2 : ∀ p, shape s' p = shape s p) :
    s'.keys = s.keys := by
  apply keys_congr h1
  intro p
  have := h2 p
  unfold shape at this
  cases hs : s.hc p <;> cases hs' : s'.hc p <;> simp_all

set_option maxHeartbeats 1000000 in
/-- Splitting. -/
theorem initSplits_ok (hw : Wf M [] [] live s) (hst : Start m K M t d s.keys live)
    (hbig : MeansWithin c.nrow c.data c.dist c.big) (hs : Settled c.nrow M c.data s) (hf : m = .h → FinMean c.nrow c.data s)
    (hncl : (s.ncl : Int) + 1 + d = live.card)
    (hq : live.card ≤ s.keys.length + m.bound K M) (hK : c.halfK * 2 = K) (hmin : 2 ≤ c.minSize)
    (hg : m = .g → t + 7 ≤ 3 * K) (hcap : s.ncl ≤ K) :
    ∃ s', initSplits c s = .ok s' ∧ s'.assign = s.assign ∧ s'.part = s.assign ∧ ∃ live' d',
      (∀ f, (s'.final f).isSome → f ∈ live) ∧
      s'.gen.maxId + 1 ≤ max (s.gen.maxId + 1) (live'.card + s.keys.length) ∧
      s'.ncl < 18446744073709551616 ∧
      (d ≤ d' ∧ live.card + s'.keys.length ≤ live'.card + s.keys.length ∧
        ∀ f, (s'.final f).isSome → (s.final f).isSome ∨ size c.nrow s.assign f < c.minSize ∨
          (0 ≤ d → K + 3 + 2 * s'.keys.length ≤ 2 * live'.card)) ∧
      (s'.keys = [] → Done m c K M live' s') ∧ (s'.keys ≠ [] → Bd m c K M (t + 1) d' live' s') := by
  have hm0 : Mid m c K M t (s.gen.maxId + 1) d (fun f => (s.final f).isSome) s.keys live s.keys [] [] [] live s := by
    refine ⟨hst, hw, by simp, nodup_keys s, by simp, ?_, ?_, ?_, List.nodup_nil, by simp, by simp,
      by simp, ?_, hs.counts, hf, Finset.Subset.refl _, rfl, ?_, by simpa using hq,
      by simp, fun f hf => (hw.liveIff f).2 (Or.inr (Or.inr (Or.inl hf))), Nat.le_max_left _ _, fun f hf => Or.inl hf⟩
    · intro p hp
      obtain ⟨nd, hnd⟩ := (mem_keys' hw).1 hp
      exact ⟨nd, hnd, fun j => ⟨hw.side_live ⟨hnd, by simp⟩ j, (hs.nodes p nd j hnd).2⟩⟩
    · intro p hp
      obtain ⟨nd, hnd⟩ := (mem_keys' hw).1 hp
      exact hs.key_empty hw hnd
    · intro p
      simp only [List.not_mem_nil, false_iff]
      rintro ⟨nd, h1, h2⟩
      exact h2 ((mem_keys' hw).2 ⟨nd, h1.1⟩)
    · intro r hr
      rcases hs.rows r hr with h1 | ⟨nd, j, h1, h2⟩
      · exact Or.inl h1.1
      · exact Or.inr (Or.inr (Or.inr ⟨_, nd, j, (mem_keys' hw).2 ⟨nd, h1⟩, h1, h2⟩))
    · rw [if_neg (by tauto)]; omega
  obtain ⟨s1, e1, ha1, nk, live1, dn, h1⟩ := forEach_inv (f := innerStep c)
    (P := fun l s' => s'.assign = s.assign ∧ ∃ nk live' dn,
      Mid m c K M t (s.gen.maxId + 1) d (fun f => (s.final f).isSome) s.keys live l dn nk [] live' s') (by
      rintro p l s' ⟨ha, nk, live', dn, hm⟩
      obtain ⟨s2, e2, ha2, nk2, live2, hm2⟩ := innerStep_ok hK hmin hg hm
      exact ⟨s2, e2, ha2.trans ha, nk2, live2, _, hm2⟩) s.keys s ⟨rfl, [], live, [], hm0⟩
  have hdn : ∀ p, p ∈ s.keys ↔ p ∈ dn := by
    intro p; rw [h1.split p]; simp
  have hcase : (0 ∈ live1 ∧ 0 ∉ live) ∨ ¬ (0 ∈ live1 ∧ 0 ∉ live) := Decidable.em _
  have hz := hst.zero
  have hsum := hst.sum
  have hcard1 := h1.card
  have hncl1 := h1.ncl
  have hM := hst.big
  have hlM : live1.card ≤ M := by
    have : live1 ⊆ Finset.range M := fun i hi => Finset.mem_range.2 (h1.wf.live_lt hi)
    simpa using Finset.card_le_card this
  have hne := hst.ne
  have hd1 : d ≤ t := by
    split at hz
    · omega
    · split at hz <;> [omega; (split at hz <;> omega)]
  have hkl : s.keys.length ≤ s1.ncl := by split at hncl1 <;> omega
  have hup : s1.ncl < 18446744073709551616 := by
    have h2 := hst.M_eq
    have h3 : live.card ≤ live1.card := Finset.card_le_card h1.sub
    split at hncl1 <;> omega
  obtain ⟨s2, live2, e2, h2⟩ := removal_ok (h1.wf.congr (dn' := s.keys) hdn fun _ => Iff.rfl)
    (nodup_keys s) hkl hup
  refine ⟨{ s2 with part := s2.assign }, ?_, h2.assign.trans ha1, h2.assign.trans ha1, ?_⟩
  · unfold initSplits
    simp only [e1, e2]
  set s3 : St R n := { s2 with part := s2.assign } with es3
  have hw3 : Wf M [] [] live2 s3 := h2.wf.of_shape (fun _ => rfl) rfl rfl rfl rfl rfl
  have hcard2 := h2.card
  have hncl2 := h2.ncl
  simp only [List.length_nil, Nat.add_zero] at hcard2 hncl2
  have hkeys : ∀ p, (∃ nd, s3.hc p = some nd) ↔ p ∈ nk := by
    intro p
    by_cases hp : p ∈ s.keys
    · constructor
      · rintro ⟨nd, hnd⟩
        have := ((h2.liveIff p).1 (h2.wf.key_live hnd)).2 hp
        cases this
      · intro hh; exact absurd hp (h1.nkOld p hh).2
    · have e : s3.hc p = s1.hc p := h2.hc p hp
      rw [e, h1.nkIff p]
      constructor
      · rintro ⟨nd, hnd⟩; exact ⟨nd, ⟨hnd, fun hh => hp ((hdn p).2 hh)⟩, by simp⟩
      · rintro ⟨nd, hnd, _⟩; exact ⟨nd, hnd.1⟩
  have hklen : s3.keys.length = nk.length := by
    apply List.Perm.length_eq
    rw [List.perm_ext_iff_of_nodup (nodup_keys s3) h1.nkNd]
    intro p
    rw [mem_keys' hw3, hkeys]
  have hcounts : ∀ i, i < M → s3.counts[i]? = some (size c.nrow s3.assign i : Int) := by
    intro i hi
    show s2.counts[i]? = some (size c.nrow s2.assign i : Int)
    rw [h2.counts, h2.assign]
    exact h1.counts i hi
  have hfin : m = .h → FinMean c.nrow c.data s3 := by
    intro hm f v hv
    change s2.final f = some v at hv
    show v = meanOf c.nrow c.data s2.assign f
    rw [h2.assign]
    rw [h2.final] at hv
    exact h1.fin hm f v hv
  have hrows : ∀ r, r < c.nrow → (s3.final (s3.assign r)).isSome ∨ ∃ nd, s3.hc (s3.assign r) = some nd := by
    intro r hr
    show (s2.final (s2.assign r)).isSome ∨ ∃ nd, s3.hc (s2.assign r) = some nd
    rw [hkeys, h2.final, h2.assign]
    rcases h1.rows r hr with h | h | h | ⟨_, _, _, h, _⟩
    · exact Or.inl h
    · exact Or.inr h
    · cases h
    · cases h
  have hconv : ∀ p nd, s3.hc p = some nd → nd.conv = false := by
    intro p nd hp
    have hn := (hkeys p).1 ⟨nd, hp⟩
    exact (h1.fresh p hn nd (by rw [← h2.hc p (h1.nkOld p hn).2]; exact hp)).1
  have hsmall : ∀ p nd j r, s3.hc p = some nd → r < c.nrow → c.dist (c.data r) (nd.cl.means j) < c.big := by
    intro p nd j r hp hr
    have hn := (hkeys p).1 ⟨nd, hp⟩
    obtain ⟨q, hq, e⟩ := (h1.fresh p hn nd (by rw [← h2.hc p (h1.nkOld p hn).2]; exact hp)).2 j
    rw [e]
    exact hbig.row r hr q hq
  have hq3 : live2.card ≤ s3.keys.length + m.bound K M := by
    have := h1.q
    omega
  refine ⟨live2, d + (if 0 ∈ live1 ∧ 0 ∉ live then 1 else 0), ?_, ?_,
    by show s2.ncl < _; omega, ⟨by split <;> omega, by omega, ?_⟩, ?_, ?_⟩
  · intro f hf
    change (s2.final f).isSome at hf
    rw [h2.final] at hf
    exact h1.finOld f hf
  · show s2.gen.maxId + 1 ≤ _
    rw [h2.maxId, hcard2]
    exact h1.hi
  · intro f hf
    change (s2.final f).isSome at hf
    rw [h2.final] at hf
    rcases h1.cause f hf with k | k | k
    · exact Or.inl k
    · rw [ha1] at k; exact Or.inr (Or.inl k)
    · right; right
      intro hd
      have := k hd
      omega
  · intro hk0
    have hnone : ∀ p nd, s3.hc p ≠ some nd := by
      intro p nd hp
      have := (mem_keys' hw3).2 ⟨nd, hp⟩
      rw [hk0] at this; cases this
    refine ⟨hw3, hcounts, hfin, fun p nd j hp => absurd hp (hnone p nd), ?_, hq3⟩
    intro r hr
    rcases hrows r hr with h | ⟨nd, h⟩
    · exact Or.inl h
    · exact absurd h (hnone _ nd)
  · intro hk0
    have hk1 : 1 ≤ s3.keys.length := by
      rcases Nat.eq_zero_or_pos s3.keys.length with h | h
      · exact absurd (List.length_eq_zero_iff.1 h) hk0
      · exact h
    refine ⟨hw3, ⟨hst.M_eq, hst.even, hst.two, hst.big, hk1, ?_, ?_, ?_⟩, ?_, hfin, ?_, hq3, ?_⟩
    · omega
    · intro p hp
      obtain ⟨nd, hnd⟩ := (mem_keys' hw3).1 hp
      exact hw3.key_live hnd
    · have hk3 : 0 ∈ s3.keys ↔ 0 ∈ nk := by rw [mem_keys' hw3, hkeys]
      have hl2 := h2.liveIff 0
      simp only [List.not_mem_nil, imp_false] at hl2
      by_cases hm : m = .g
      · rw [if_pos hm] at hz ⊢
        split <;> push_cast <;> omega
      rw [if_neg hm] at hz ⊢
      push_cast
      by_cases h0nk : 0 ∈ nk
      · rw [if_pos (hk3.2 h0nk)]
        have ⟨ha, hb⟩ := h1.nkOld 0 h0nk
        rw [if_neg hb, if_pos ha] at hz
        rw [if_neg (by tauto)]
        omega
      · rw [if_neg fun hh => h0nk (hk3.1 hh)]
        by_cases h0 : 0 ∈ s.keys
        · have h0L : 0 ∈ live := hst.sub 0 h0
          rw [if_pos h0] at hz
          rw [if_neg (by rw [hl2]; tauto), if_neg (by tauto)]
          omega
        · rw [if_neg h0] at hz
          by_cases h0L : 0 ∈ live
          · rw [if_pos h0L] at hz
            rw [if_pos (hl2.2 ⟨h1.sub h0L, h0⟩), if_neg (by tauto)]
            omega
          · rw [if_neg h0L] at hz
            by_cases h01 : 0 ∈ live1
            · rw [if_pos (hl2.2 ⟨h01, h0⟩), if_pos ⟨h01, h0L⟩]
              omega
            · rw [if_neg (by rw [hl2]; tauto), if_neg (by tauto)]
              omega
    · refine ⟨?_, fun i hi _ _ => hcounts i hi, ?_, ?_, hsmall⟩
      · intro r hr
        rcases hrows r hr with h | ⟨nd, h⟩
        · exact Or.inl ⟨h, hw3.finNone _ h⟩
        · exact Or.inr ⟨nd, h, Or.inl rfl⟩
      · intro p nd hp hcv
        rw [hconv p nd hp] at hcv; cases hcv
      · intro p nd j hp hcv
        rw [hconv p nd hp] at hcv; cases hcv
    · show (s2.ncl : Int) + 1 + _ = live2.card
      rcases hcase with hz' | hz'
      · rw [if_pos hz'] at hncl1 ⊢
        omega
      · rw [if_neg hz'] at hncl1 ⊢
        omega
    · intro p nd hp
      have h3 := h1.pop p ((hkeys p).1 ⟨nd, hp⟩)
      unfold size at h3
      obtain ⟨r, hr⟩ := Finset.card_pos.1 h3
      rw [Finset.mem_filter, Finset.mem_range] at hr
      refine ⟨r, hr.1, ?_⟩
      show s2.assign r = p
      rw [h2.assign]
      exact hr.2

end

section
variable [Field R] [LinearOrder R] [LinearOrder D] {c : Cfg R D n} {K M : Nat}

theorem loop_ok (hbig : MeansWithin c.nrow c.data c.dist c.big)
    (hN : 0 < c.nrow) (hT : 0 < c.reqThreads) (hlt : c.nrow < 4294967296)
    {sched : Nat → Nat → List Nat}
    (hc : ∀ t i, Complete (Partition.effThreads c.reqThreads c.nrow)
      (Kmeans.threadRows c.nrow c.reqThreads) (sched t i))
    (hK : c.halfK * 2 = K) (hmin : 2 ≤ c.minSize) (hit : 1 ≤ c.maxIters) :
    ∀ (fuel t : Nat) (d : Int) (live : Finset Nat) (s : St R n), Bd .h c K M t d live s →
      K + K / 2 ≤ t + fuel →
      ∃ s', loop c sched fuel t s = .ok (some s') ∧ ∃ live', Done .h c K M live' s' := by
  intro fuel
  induction fuel with
  | zero =>
    intro t d live s h hf
    have h1 := h.start.sum
    have h2 := h.q
    have h3 := h.start.ne
    simp only [Mode.bound, reduceCtorEq, if_false] at h2
    omega
  | succ fuel ih =>
    intro t d live s h hf
    obtain ⟨s1, e1, h1⟩ := iters_ok (c := c) hbig hN hT hlt (hc t) (List.range c.maxIters) s (by
      intro hh
      have := congrArg List.length hh
      rw [List.length_range] at this
      simp at this
      omega) h.wf h.ready
    have hk := shape_keys h1.hsize h1.shape
    have hw1 := h1.wf h.wf
    unfold loop iterations
    simp only [e1]
    by_cases hcap : c.atCap s1 = true
    · rw [if_pos hcap]
      refine ⟨s1, rfl, live, hw1, h1.settled.counts, fun hm => h1.fin (h.fin hm),
        fun p nd j hp => (h1.settled.nodes p nd j hp).2, ?_, by rw [hk]; exact h.q⟩
      intro r hr
      rcases h1.settled.rows r hr with h2 | ⟨nd, j, h2, h3⟩
      · exact Or.inl h2.1
      · exact Or.inr ⟨_, nd, j, h2, h3⟩
    · rw [if_neg hcap]
      obtain ⟨s2, e2, _, _, live2, d2, _, _, _, _, hd, hb⟩ := initSplits_ok hw1 (by rw [hk]; exact h.start) hbig h1.settled
        (fun hm => h1.fin (h.fin hm)) (by rw [h1.ncl]; exact h.ncl) (by rw [hk]; exact h.q) hK hmin
        (by intro hm; cases hm) (by
          unfold Cfg.atCap at hcap
          simp only [decide_eq_true_eq] at hcap
          omega)
      simp only [e2]
      by_cases hk2 : s2.keys = []
      · rw [if_pos hk2]
        exact ⟨s2, rfl, live2, hd hk2⟩
      · rw [if_neg hk2]
        exact ih (t + 1) d2 live2 s2 (hb hk2) (by omega)

end

/-! ### The start -/

theorem maxHnodesLoop_eq (v : Nat) : ∀ (f e nodes : Nat), Nat.log2 v < e + f → v ≠ 0 →
    maxHnodesLoop v f (2 ^ e) nodes = nodes + (2 ^ (max (Nat.log2 v + 1) e) - 2 ^ e) := by
  intro f
  induction f with
  | zero =>
    intro e nodes h _
    unfold maxHnodesLoop
    rw [show max (Nat.log2 v + 1) e = e from by omega]
    omega
  | succ f ih =>
    intro e nodes h hv
    unfold maxHnodesLoop
    by_cases hle : 2 ^ e ≤ v
    · rw [if_pos hle, ← Nat.pow_succ, ih (e + 1) _ (by omega) hv]
      have he : e ≤ Nat.log2 v := (Nat.le_log2 hv).2 hle
      rw [show max (Nat.log2 v + 1) (e + 1) = Nat.log2 v + 1 from by omega,
        show max (Nat.log2 v + 1) e = Nat.log2 v + 1 from by omega]
      have h1 : 2 ^ (e + 1) ≤ 2 ^ (Nat.log2 v + 1) := Nat.pow_le_pow_right (by omega) (by omega)
      have h2 : 2 ^ (e + 1) = 2 * 2 ^ e := by rw [Nat.pow_succ, Nat.mul_comm]
      omega
    · rw [if_neg hle]
      have : Nat.log2 v < e := (Nat.log2_lt hv).2 (by omega)
      rw [show max (Nat.log2 v + 1) e = e from by omega]
      omega

theorem maxHnodes_eq {v : Nat} (hv : v ≠ 0) (hlt : v < 4294967296) :
    maxHnodes v = 2 * 2 ^ Nat.log2 v - 1 := by
  unfold maxHnodes
  have h := maxHnodesLoop_eq v 32 0 0 (by
    have : Nat.log2 v < 32 := (Nat.log2_lt hv).2 (by omega)
    omega) hv
  rw [Nat.pow_zero] at h
  rw [h, show max (Nat.log2 v + 1) 0 = Nat.log2 v + 1 from by omega, Nat.pow_succ]
  omega

theorem sizes {c : Cfg R D n} (h2 : 2 ≤ c.kmax) (hlt : c.kmax < 1073741824) :
    c.halfK * 2 = hclustFloor c.kmax ∧ c.maxNodes = 4 * hclustFloor c.kmax - 1 ∧
      2 ≤ hclustFloor c.kmax ∧ hclustFloor c.kmax ≤ c.kmax ∧ 1 ≤ c.halfK ∧
      hclustFloor c.kmax % 2 = 0 := by
  have hl : 1 ≤ Nat.log2 c.kmax := (Nat.le_log2 (by omega)).2 (by omega)
  obtain ⟨e, he⟩ : ∃ e, Nat.log2 c.kmax = e + 1 := ⟨Nat.log2 c.kmax - 1, by omega⟩
  have hpow : (2 : Nat) ^ (e + 1) = 2 * 2 ^ e := by rw [Nat.pow_succ, Nat.mul_comm]
  have hpos : 1 ≤ 2 ^ e := Nat.one_le_two_pow
  have hle : 2 ^ Nat.log2 c.kmax ≤ c.kmax := Nat.log2_self_le (by omega)
  have hdbl : Nat.log2 (c.kmax * 2) = Nat.log2 c.kmax + 1 := by
    rw [Nat.log2_eq_iff (by omega)]
    have := (Nat.log2_eq_iff (n := c.kmax) (k := Nat.log2 c.kmax) (by omega)).1 rfl
    rw [Nat.pow_succ, Nat.pow_succ]
    rw [Nat.pow_succ] at this
    omega
  unfold Cfg.halfK Cfg.maxNodes hclustFloor
  rw [maxHnodes_eq (by omega) (by omega), hdbl, Nat.pow_succ]
  rw [he, hpow] at *
  omega

/-- The state in which the main loop starts. -/
def started (c : Cfg R D n) [Zero R] (m0 m1 : Row R n) : St R n :=
  { hc := Function.update (fun i => if i = 0 then some ⟨Clusters.empty, 0, 0, false⟩ else none) 0
      (some ⟨((Clusters.empty).setMean m0 0).setMean m1 1, 1, 2, false⟩)
    hsize := max (max c.maxNodes 1) 1
    active := (((VMap.flagsCreate c.maxNodes false).set 0 true).set 1 true).set 2 true
    assign := fun _ => 0
    part := fun _ => 0
    counts := List.replicate c.maxNodes 0
    gen := ⟨2, []⟩
    final := fun _ => none
    ncl := 2
    grow := c.grow }

theorem init_given [Field R] {c : Cfg R D n} (h2 : 2 ≤ c.kmax) (hlt : c.kmax < 1073741824) (m0 m1 : Row R n) :
    ∃ s0, construct c Clusters.empty = .ok s0 ∧ runHinit c (.given m0 m1) s0 = .ok (started c m0 m1) := by
  obtain ⟨_, z2, z3, _, z5, _⟩ := sizes h2 hlt
  have hM : 7 ≤ c.maxNodes := by omega
  have hlen : (VMap.flagsCreate c.maxNodes false).length = c.maxNodes := by
    simp [VMap.flagsCreate]
  unfold construct
  rw [if_neg (by omega)]
  unfold St.activate
  simp only
  rw [setFlag_lt (by rw [hlen]; omega)]
  refine ⟨_, rfl, ?_⟩
  unfold runHinit
  simp only [if_true]
  unfold St.activate St.putNode
  simp only [IdGen.create, IdGen.Gen.split, IdGen.Gen.next]
  rw [setFlag_lt (by rw [List.length_set, hlen]; simp [u32]; omega)]
  simp only
  rw [setFlag_lt (by rw [List.length_set, List.length_set, hlen]; simp [u32]; omega)]
  simp [started, u32]

theorem init_ok [Field R] [LT D] {c : Cfg R D n} (h2 : 2 ≤ c.kmax) (hlt : c.kmax < 1073741824)
    (hbig : MeansWithin c.nrow c.data c.dist c.big)
    {it : HInit R n} (hit : Startable c it) : ∃ s0 m0 m1, construct c Clusters.empty = .ok s0 ∧
      runHinit c it s0 = .ok (started c m0 m1) ∧
      ∀ r, r < c.nrow → c.dist (c.data r) m0 < c.big ∧ c.dist (c.data r) m1 < c.big := by
  have hgo : ∃ m0 m1, (∀ s0 : St R n, runHinit c it s0 = runHinit c (.given m0 m1) s0) ∧
      ∀ r, r < c.nrow → c.dist (c.data r) m0 < c.big ∧ c.dist (c.data r) m1 < c.big := by
    cases it with
    | forgy i j => exact ⟨_, _, fun _ => rfl, fun r hr => ⟨hbig.row r hr i hit.1, hbig.row r hr j hit.2⟩⟩
    | given m0 m1 => exact ⟨_, _, fun _ => rfl, hit⟩
    | other => exact hit.elim
  obtain ⟨m0, m1, hgo, hsm⟩ := hgo
  obtain ⟨s0, e0, e1⟩ := init_given (c := c) h2 hlt m0 m1
  exact ⟨s0, m0, m1, e0, (hgo s0).trans e1, hsm⟩

theorem started_bd [Field R] [LT D] (m : Mode) {c : Cfg R D n} (hN : 0 < c.nrow) (h2 : 2 ≤ c.kmax) (hlt : c.kmax < 1073741824)
    (m0 m1 : Row R n) (hsm : ∀ r, r < c.nrow → c.dist (c.data r) m0 < c.big ∧ c.dist (c.data r) m1 < c.big) :
    Bd m c (hclustFloor c.kmax) c.maxNodes 0 0 {0, 1, 2} (started c m0 m1) := by
  obtain ⟨z1, z2, z3, z4, z5, z6⟩ := sizes h2 hlt
  have hM : 7 ≤ c.maxNodes := by omega
  have hhc : ∀ p nd, (started c m0 m1).hc p = some nd → p = 0 ∧ nd.zero = 1 ∧ nd.one = 2 ∧
      nd.conv = false := by
    intro p nd hp
    unfold started at hp
    simp only at hp
    by_cases h0 : p = 0
    · subst h0
      rw [Function.update_self] at hp
      cases hp
      exact ⟨rfl, rfl, rfl, rfl⟩
    · rw [Function.update_of_ne h0, if_neg h0] at hp
      cases hp
  have hhc0 : ∃ nd, (started c m0 m1).hc 0 = some nd ∧ nd.zero = 1 ∧ nd.one = 2 := by
    refine ⟨⟨((Clusters.empty).setMean m0 0).setMean m1 1, 1, 2, false⟩, ?_, rfl, rfl⟩
    unfold started
    simp only [Function.update_self]
  have hside : ∀ p nd j, (started c m0 m1).hc p = some nd → nd.side j = 1 ∨ nd.side j = 2 := by
    intro p nd j hp
    obtain ⟨_, e1, e2, _⟩ := hhc p nd hp
    rcases mem_sides.1 ⟨j, rfl⟩ with e | e
    · exact Or.inl (e.trans e1)
    · exact Or.inr (e.trans e2)
  have hnone : ∀ p, p ≠ 0 → (started c m0 m1).hc p = none := by
    intro p hp
    cases h : (started c m0 m1).hc p with
    | none => rfl
    | some nd => exact absurd (hhc p nd h).1 hp
  have hlen : (VMap.flagsCreate c.maxNodes false).length = c.maxNodes := by simp [VMap.flagsCreate]
  have hact : ∀ i, i ≤ 2 → (started c m0 m1).active[i]? = some true := by
    intro i hi
    unfold started
    simp only
    have : i = 0 ∨ i = 1 ∨ i = 2 := by omega
    rcases this with rfl | rfl | rfl <;> simp [List.getElem?_set, hlen] <;> omega
  have hchild : ∀ i, Child [] (started c m0 m1) i ↔ i = 1 ∨ i = 2 := by
    intro i
    constructor
    · rintro ⟨p, nd, j, h1, rfl⟩
      exact hside p nd j h1.1
    · intro h
      obtain ⟨nd, hnd, e1, e2⟩ := hhc0
      obtain ⟨j, hj⟩ := (mem_sides (nd := nd) (i := i)).2 (by rw [e1, e2]; exact h)
      exact ⟨0, nd, j, ⟨hnd, by simp⟩, hj⟩
  have hw : Wf c.maxNodes [] [] {0, 1, 2} (started c m0 m1) := by
    refine ⟨by simp [started, hlen], by simp [started], ?_, ?_, by simp, ?_, ?_, ?_, ?_, ?_, ?_, ?_, ?_,
      by simp, ?_, List.nodup_nil, ?_, ?_, ?_, ?_⟩
    · show c.maxNodes ≤ max (max c.maxNodes 1) 1; omega
    · intro p nd hp
      show p < max (max c.maxNodes 1) 1
      have := (hhc p nd hp).1; omega
    · intro p nd hp
      rw [(hhc p nd hp.1).1]; exact hact 0 (by omega)
    · intro p nd j hp
      rcases hside p nd j hp.1 with e | e <;> rw [e] <;> exact hact _ (by omega)
    · intro p nd hp
      obtain ⟨_, e1, e2, _⟩ := hhc p nd hp.1
      omega
    · intro p nd j hp
      apply hnone
      rcases hside p nd j hp.1 with e | e <;> rw [e] <;> omega
    · intro p q nd nd' _ _ hp hq _
      rw [(hhc p nd hp.1).1, (hhc q nd' hq.1).1]
    · intro f hf; cases hf
    · intro f hf; cases hf
    · intro f hf; cases hf
    · intro i
      rw [hchild]
      have : (∃ nd, (started c m0 m1).hc i = some nd) ↔ i = 0 := by
        constructor
        · rintro ⟨nd, h⟩; exact (hhc i nd h).1
        · rintro rfl; obtain ⟨nd, h, _⟩ := hhc0; exact ⟨nd, h⟩
      rw [this]
      show _ ↔ _ ∨ _ ∨ (none : Option (Row R n)).isSome ∨ _
      simp
    · intro i hi; cases hi
    · intro i
      show i ≤ 2 ↔ _ ∨ i ∈ []
      simp
      omega
    · show 2 < c.maxNodes; omega
    · intro i hi
      change ((((VMap.flagsCreate c.maxNodes false).set 0 true).set 1 true).set 2 true)[i]? = some true
        at hi
      by_contra hc
      simp only [Finset.mem_insert, Finset.mem_singleton, not_or] at hc
      rw [List.getElem?_set_ne (by omega), List.getElem?_set_ne (by omega),
        List.getElem?_set_ne (by omega)] at hi
      unfold VMap.flagsCreate at hi
      rw [List.getElem?_replicate] at hi
      split at hi <;> cases hi
  have hkeys : (started c m0 m1).keys = [0] := by
    apply List.Perm.eq_singleton
    rw [List.perm_ext_iff_of_nodup (nodup_keys _) (by simp)]
    intro p
    rw [mem_keys' hw, List.mem_singleton]
    constructor
    · rintro ⟨nd, h⟩; exact (hhc p nd h).1
    · rintro rfl; obtain ⟨nd, h, _⟩ := hhc0; exact ⟨nd, h⟩
  refine ⟨hw, ⟨z2, z6, z3, by omega, by rw [hkeys]; simp, by rw [hkeys]; simp, ?_, by rw [hkeys]; simp⟩,
    ⟨?_, ?_, ?_, ?_, ?_⟩, ?_, ?_, ?_, fun p nd hp => ⟨0, hN, ((hhc p nd hp).1).symm⟩⟩
  · intro p hp
    rw [hkeys, List.mem_singleton] at hp
    subst hp; simp
  · intro r _
    obtain ⟨nd, h, _⟩ := hhc0
    exact Or.inr ⟨nd, h, Or.inl rfl⟩
  · intro i hi h0 _
    have hi0 : i ≠ 0 := by
      rintro rfl
      obtain ⟨nd, h, _⟩ := hhc0
      rw [h] at h0; cases h0
    have : size c.nrow (started c m0 m1).assign i = 0 := by
      unfold size
      rw [Finset.card_eq_zero, Finset.filter_eq_empty_iff]
      intro r _ e
      exact hi0 e.symm
    rw [this]
    unfold started
    simp only
    rw [List.getElem?_replicate, if_pos hi]
    rfl
  · intro p nd hp hcv
    rw [(hhc p nd hp).2.2.2] at hcv; cases hcv
  · intro p nd j hp hcv
    rw [(hhc p nd hp).2.2.2] at hcv; cases hcv
  · intro p nd j r hp hr
    obtain ⟨rfl, -⟩ := hhc p nd hp
    unfold started at hp
    simp only [Function.update_self] at hp
    cases hp
    have : j = 0 ∨ j = 1 := by omega
    rcases this with rfl | rfl
    · exact (hsm r hr).1
    · exact (hsm r hr).2
  · intro _ f v hv; cases hv
  · rfl
  · rw [hkeys]
    unfold Mode.bound
    split <;> simp <;> omega

/-! ### The end -/

theorem completeFold (s : St R n) (f : Nat) : ∀ (l : List Nat) (F : Nat → Option (Row R n)),
    (∃ p nd j, p ∈ l ∧ s.hc p = some nd ∧ nd.side j = f ∧
      l.foldl (fun f p => match s.hc p with
        | none => f
        | some nd => Function.update (Function.update f nd.zero (some (nd.cl.means 0)))
            nd.one (some (nd.cl.means 1))) F f = some (nd.cl.means j)) ∨
    ((∀ p nd j, p ∈ l → s.hc p = some nd → nd.side j ≠ f) ∧
      l.foldl (fun f p => match s.hc p with
        | none => f
        | some nd => Function.update (Function.update f nd.zero (some (nd.cl.means 0)))
            nd.one (some (nd.cl.means 1))) F f = F f) := by
  intro l
  induction l with
  | nil => intro F; right; exact ⟨by simp, rfl⟩
  | cons p l ih =>
    intro F
    rw [List.foldl_cons]
    rcases ih (match s.hc p with
      | none => F
      | some nd => Function.update (Function.update F nd.zero (some (nd.cl.means 0)))
            nd.one (some (nd.cl.means 1))) with ⟨q, nd, j, h1, h2, h3, h4⟩ | ⟨h1, h2⟩
    · exact Or.inl ⟨q, nd, j, List.mem_cons_of_mem _ h1, h2, h3, h4⟩
    · rw [h2]
      cases hp : s.hc p with
      | none =>
        right
        refine ⟨?_, rfl⟩
        intro q nd j hq hnd
        rcases List.mem_cons.1 hq with rfl | hq
        · rw [hp] at hnd; cases hnd
        · exact h1 q nd j hq hnd
      | some nd =>
        simp only
        by_cases e1 : f = nd.one
        · left
          refine ⟨p, nd, 1, by simp, hp, e1.symm, ?_⟩
          rw [e1, Function.update_self]
        · rw [Function.update_of_ne e1]
          by_cases e0 : f = nd.zero
          · left
            refine ⟨p, nd, 0, by simp, hp, e0.symm, ?_⟩
            rw [e0, Function.update_self]
          · rw [Function.update_of_ne e0]
            right
            refine ⟨?_, rfl⟩
            intro q nd' j hq hnd
            rcases List.mem_cons.1 hq with rfl | hq
            · rw [hp] at hnd; cases hnd
              intro e
              rcases mem_sides.1 ⟨j, e⟩ with h | h
              · exact e0 h
              · exact e1 h
            · exact h1 q nd' j hq hnd

/-- What a finished run looks like. -/
structure Finished [Field R] (m : Mode) (c : Cfg R D n) (s : St R n) : Prop where
  lenC : s.counts.length = c.maxNodes
  counts : ∀ i, i < c.maxNodes → s.counts[i]? = some (size c.nrow s.assign i : Int)
  inRange : ∀ r, r < c.nrow → s.assign r < c.maxNodes
  named : ∀ r, r < c.nrow → (s.final (s.assign r)).isSome
  idLt : ∀ i, (s.final i).isSome → i < c.maxNodes
  means : m = .h → ∀ i v, s.final i = some v → v = meanOf c.nrow c.data s.assign i
  few : ∀ ids : List Nat, ids.Nodup → (∀ i ∈ ids, (s.final i).isSome) →
    ids.length ≤ m.bound (hclustFloor c.kmax) c.maxNodes

theorem Done.finished [Field R] {m : Mode} {c : Cfg R D n} {live : Finset Nat} {s : St R n}
    (h : Done m c (hclustFloor c.kmax) c.maxNodes live s) : Finished m c (completeFinal s) := by
  have hfin : ∀ f, (∃ p nd j, s.hc p = some nd ∧ nd.side j = f ∧
      (completeFinal s).final f = some (nd.cl.means j)) ∨
      ((∀ p nd j, s.hc p = some nd → nd.side j ≠ f) ∧ (completeFinal s).final f = s.final f) := by
    intro f
    rcases completeFold s f s.keys s.final with ⟨p, nd, j, _, h2, h3, h4⟩ | ⟨h1, h2⟩
    · exact Or.inl ⟨p, nd, j, h2, h3, h4⟩
    · exact Or.inr ⟨fun p nd j hp => h1 p nd j ((mem_keys' h.wf).2 ⟨nd, hp⟩) hp, h2⟩
  have hlive : ∀ f, ((completeFinal s).final f).isSome → f ∈ live ∧ s.hc f = none := by
    intro f hf
    rcases hfin f with ⟨p, nd, j, h2, h3, _⟩ | ⟨_, h2⟩
    · subst h3
      exact ⟨h.wf.side_live ⟨h2, by simp⟩ j, h.wf.sideNone p nd j ⟨h2, by simp⟩⟩
    · rw [h2] at hf
      exact ⟨(h.wf.liveIff f).2 (Or.inr (Or.inr (Or.inl hf))), h.wf.finNone f hf⟩
  have hnamed : ∀ r, r < c.nrow → ((completeFinal s).final (s.assign r)).isSome := by
    intro r hr
    rcases hfin (s.assign r) with ⟨p, nd, j, _, _, h4⟩ | ⟨h1, h2⟩
    · rw [h4]; rfl
    · rw [h2]
      rcases h.rows r hr with h3 | ⟨p, nd, j, h3, h4⟩
      · exact h3
      · exact absurd h4.symm (h1 p nd j h3)
  refine ⟨h.wf.lenC, h.counts, ?_, hnamed, fun i hi => h.wf.live_lt (hlive i hi).1, ?_, ?_⟩
  · intro r hr
    exact h.wf.live_lt (hlive _ (hnamed r hr)).1
  · intro hm i v hv
    rcases hfin i with ⟨p, nd, j, h2, h3, h4⟩ | ⟨_, h2⟩
    · rw [h4] at hv
      cases hv
      rw [← h3]
      exact h.nodes p nd j h2
    · rw [h2] at hv
      exact h.fin hm i v hv
  · intro ids hnd hids
    have hdisj : (ids ++ s.keys).Nodup := by
      rw [List.nodup_append]
      refine ⟨hnd, nodup_keys s, ?_⟩
      rintro a ha b hb rfl
      obtain ⟨nd, hk⟩ := (mem_keys' h.wf).1 hb
      rw [(hlive a (hids a ha)).2] at hk
      cases hk
    have hle : (ids ++ s.keys).toFinset.card ≤ live.card := by
      apply Finset.card_le_card
      intro i hi
      rw [List.mem_toFinset, List.mem_append] at hi
      rcases hi with hi | hi
      · exact (hlive i (hids i hi)).1
      · obtain ⟨nd, hk⟩ := (mem_keys' h.wf).1 hi
        exact h.wf.key_live hk
    rw [List.toFinset_card_of_nodup hdisj, List.length_append] at hle
    have := h.q
    omega

/-- Every run of hierarchical clustering with `min_clust_size` at least 2 ends normally. -/
theorem run_ok [Field R] [LinearOrder R] [LinearOrder D] {c : Cfg R D n}
    (hbig : MeansWithin c.nrow c.data c.dist c.big)
    (hN : 0 < c.nrow) (hT : 0 < c.reqThreads) (hlt : c.nrow < 4294967296)
    (hk2 : 2 ≤ c.kmax) (hklt : c.kmax < 1073741824) (hmin : 2 ≤ c.minSize) (hmi : 1 ≤ c.maxIters)
    {it : HInit R n} (hit : Startable c it) {sched : Nat → Nat → List Nat}
    (hc : ∀ t i, Complete (Partition.effThreads c.reqThreads c.nrow)
      (Kmeans.threadRows c.nrow c.reqThreads) (sched t i)) {fuel : Nat}
    (hf : c.kmax + c.kmax / 2 ≤ fuel) :
    ∃ s, run c it sched fuel = .ok (some s) ∧ Finished .h c s := by
  obtain ⟨s0, m0, m1, e0, e1, hsm⟩ := init_ok (c := c) hk2 hklt hbig hit
  obtain ⟨z1, z2, z3, z4, z5, z6⟩ := sizes (c := c) hk2 hklt
  obtain ⟨s, e2, live, h⟩ := loop_ok hbig hN hT hlt hc z1 hmin hmi fuel 0 0 _ _
    (started_bd .h hN hk2 hklt m0 m1 hsm) (by omega)
  refine ⟨completeFinal s, ?_, h.finished⟩
  unfold run
  simp only [e0, e1, e2]

/-- More fuel does not change how a run ends. -/
theorem loop_mono [Field R] [LinearOrder R] [LinearOrder D] {c : Cfg R D n} {sched : Nat → Nat → List Nat} (more : Nat) :
    ∀ (fuel t : Nat) (s s' : St R n), loop c sched fuel t s = .ok (some s') →
      loop c sched (fuel + more) t s = .ok (some s') := by
  intro fuel
  induction fuel with
  | zero => intro t s s' e; cases e
  | succ fuel ih =>
    intro t s s' e
    rw [Nat.add_right_comm]
    unfold loop at e ⊢
    split at e
    · cases e
    · rename_i s1 e1
      split at e
      · rename_i hcap; rw [if_pos hcap]; exact e
      · rename_i hcap
        rw [if_neg hcap]
        split at e
        · cases e
        · rename_i s2 e2
          split at e
          · rename_i hk; rw [if_pos hk]; exact e
          · rename_i hk; rw [if_neg hk]; exact ih _ _ _ e

/-- Every run of hierarchical clustering that ends normally is finished. -/
theorem run_finished [Field R] [LinearOrder R] [LinearOrder D] {c : Cfg R D n}
    (hbig : MeansWithin c.nrow c.data c.dist c.big)
    (hN : 0 < c.nrow) (hT : 0 < c.reqThreads) (hlt : c.nrow < 4294967296)
    (hk2 : 2 ≤ c.kmax) (hklt : c.kmax < 1073741824) (hmin : 2 ≤ c.minSize) (hmi : 1 ≤ c.maxIters)
    {it : HInit R n} (hit : Startable c it) {sched : Nat → Nat → List Nat}
    (hc : ∀ t i, Complete (Partition.effThreads c.reqThreads c.nrow)
      (Kmeans.threadRows c.nrow c.reqThreads) (sched t i)) {fuel : Nat} {s : St R n}
    (e : run c it sched fuel = .ok (some s)) : Finished .h c s := by
  obtain ⟨s', e', h⟩ := run_ok hbig hN hT hlt hk2 hklt hmin hmi hit hc (fuel := fuel + (c.kmax + c.kmax / 2))
    (Nat.le_add_left _ _)
  have : s' = s := by
    unfold run at e e'
    split at e
    · cases e
    · rename_i s0 e0
      simp only [e0] at e'
      split at e
      · cases e
      · rename_i s1 e1
        simp only [e1] at e'
        split at e
        · cases e
        · cases e
        · rename_i s2 e2
          rw [loop_mono (c.kmax + c.kmax / 2) _ _ _ _ e2] at e'
          cases e
          cases e'
          rfl
  exact this ▸ h

end Knor.Hclust
