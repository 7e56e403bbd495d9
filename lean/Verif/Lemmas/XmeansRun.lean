import Verif.Lemmas.XmeansMean

/-! Rounds and runs of x-means and g-means. -/

namespace Knor.Xmeans

open Knor Knor.Hclust Knor.Spec Knor.Par

variable {R D : Type _} {n : Nat}

/-- The mode of the lemmas about splitting. -/
def Alg.mode : Alg → Mode
  | .x => .x
  | .g => .g

theorem Alg.mode_ne (alg : Alg) : alg.mode ≠ .h := by cases alg <;> decide

/-- What holds at the beginning of a round. -/
structure XBd [Field R] [LT D] (alg : Alg) (c : Cfg R D n) (K M t : Nat) (d : Int) (live : Finset Nat)
    (s : XSt R n) : Prop where
  bd : Bd alg.mode c K M t d live s.h
  home : ∀ r, r < c.nrow → s.h.part r = s.h.assign r
  neat : Neat s.cl
  nclLt : s.h.ncl < 18446744073709551616

section
variable [Field R] [LT D] {alg : Alg} {c : Cfg R D n} {K M t : Nat} {d : Int} {live : Finset Nat} {s : XSt R n}

theorem XBd.flags (h : XBd alg c K M t d live s) {r : Nat} (hr : r < c.nrow) :
    ∃ b, VMap.flagsGet s.h.active (s.h.assign r) = .ok b := by
  apply flags_ok h.bd.wf
  rcases h.bd.ready.rows r hr with ⟨h1, _⟩ | ⟨nd, h1, h2 | ⟨j, h2⟩⟩
  · exact h.bd.wf.live_lt ((h.bd.wf.liveIff _).2 (Or.inr (Or.inr (Or.inl h1))))
  · rw [h2]; exact h.bd.wf.live_lt (h.bd.wf.key_live h1)
  · rw [h2]; exact h.bd.wf.live_lt (h.bd.wf.side_live ⟨h1, by simp⟩ j)

theorem XBd.mean (h : XBd alg c K M t d live s) (hN : 0 < c.nrow) (hT : 0 < c.reqThreads)
    (hlt : c.nrow < 4294967296) (hn : 0 < n) : ∃ s1, meanPhase c s = .ok s1 ∧ Means c s s1 ∧
      ∀ p nd, s.h.hc p = some nd → p < s1.cl.nclust := by
  obtain ⟨s1, e, h1⟩ := meanPhase_ok hN hT hlt hn h.neat fun r hr => h.flags hr
  refine ⟨s1, e, h1, ?_⟩
  intro p nd hp
  obtain ⟨r, hr, h2⟩ := h.bd.pop p nd hp
  have := h1.rows r hr (by
    rw [← h.home r hr, h2]; exact h.bd.wf.keyAct p nd ⟨hp, by simp⟩)
  rwa [h2] at this

end

section
variable [Field R] [LinearOrder R] [LinearOrder D] {alg : Alg} {c : Cfg R D n} {K M t : Nat} {d : Int}
  {live : Finset Nat} {s : XSt R n}

theorem splitCheck_ok {h : St R n} (hw : Wf M [] [] live h) (hs : Settled c.nrow M c.data h) :
    splitCheck c h = .ok h := by
  unfold splitCheck
  apply forEach_same
  intro r hr
  rw [List.mem_range] at hr
  rcases hs.rows r hr with ⟨h1, _⟩ | ⟨nd, j, h1, h2⟩
  · have := hw.finInact _ h1
    unfold VMap.flagsGet
    rw [this]
  · have := hw.sideAct _ nd j ⟨h1, by simp⟩
    unfold VMap.flagsGet
    rw [h2, this]
    simp only
    rw [h1]

/-- The iterations either run into the unchecked read or do what those of hierarchical clustering do. -/
theorem iterate_ok (hbig : MeansWithin c.nrow c.data c.dist c.big)
    (hN : 0 < c.nrow) (hT : 0 < c.reqThreads) (hlt : c.nrow < 4294967296) {sched : Nat → List Nat}
    (hc : ∀ i, Complete (Partition.effThreads c.reqThreads c.nrow)
      (Kmeans.threadRows c.nrow c.reqThreads) (sched i)) (hit : 1 ≤ c.maxIters)
    (hw : Wf M [] [] live s.h) (hr : Ready c M s.h) :
    ((∃ r, r < c.nrow ∧ s.cl.nclust ≤ s.h.part r) ∧ iterate alg c sched s = .error .ub) ∨
    ((∀ r, r < c.nrow → s.h.part r < s.cl.nclust) ∧
      ∃ h2, iterate alg c sched s = .ok { s with h := h2 } ∧ RoundOk c M s.h h2) := by
  by_cases hp : ∃ r ∈ List.range c.nrow, s.cl.nclust ≤ s.h.part r
  · left
    obtain ⟨r, hr1, hr2⟩ := hp
    refine ⟨⟨r, List.mem_range.1 hr1, hr2⟩, ?_⟩
    unfold iterate pdistCheck
    rw [if_pos ⟨by omega, r, hr1, hr2⟩]
  · right
    refine ⟨fun r hr => ?_, ?_⟩
    · by_contra hcon
      exact hp ⟨r, List.mem_range.2 hr, by omega⟩
    obtain ⟨h2, e, hro⟩ := iters_ok (c := c) hbig hN hT hlt hc (List.range c.maxIters) s.h (by
      intro hh
      have := congrArg List.length hh
      rw [List.length_range] at this
      simp at this
      omega) hw hr
    refine ⟨h2, ?_, hro⟩
    unfold iterate pdistCheck
    rw [if_neg fun hh => hp hh.2]
    simp only
    rw [show iterations c sched s.h = .ok h2 from e]
    simp only
    by_cases ha : alg = .g
    · simp only [if_pos ha, splitCheck_ok (hro.wf hw) hro.settled]
    · simp only [if_neg ha]

end

section
variable [Field R] [LT D] {alg : Alg} {c : Cfg R D n} {K M t : Nat} {d : Int} {live : Finset Nat} {s : XSt R n}

theorem Round.key {M : Nat} {s s' : St R n} (h : RoundOk c M s s') (p : Nat) :
    (∃ nd, s'.hc p = some nd) ↔ ∃ nd, s.hc p = some nd := by
  have h1 := h.shape p
  unfold shape at h1
  cases e1 : s.hc p <;> cases e2 : s'.hc p <;> simp_all

theorem decision_ok {s2 : XSt R n} (h : Bd alg.mode c K M t d live s.h) (hro : RoundOk c M s.h s2.h)
    (hcl : ∀ p nd, s.h.hc p = some nd → p < s2.cl.nclust) {rej : List Nat} (hnd : rej.Nodup)
    (hrej : ∀ p ∈ rej, p ∈ s2.h.keys) :
    ∃ h3, partitionDecision alg c rej s2 = .ok { s2 with h := h3 } ∧ Taken c.nrow alg s2.cl s2.h rej h3 := by
  have hw2 := hro.wf h.wf
  have hso := Sound.of hw2 hro.settled
  have hk : ∀ p ∈ rej, ∃ nd, s2.h.hc p = some nd := fun p hp => (mem_keys' hw2).1 (hrej p hp)
  have hlt : ∀ p ∈ rej, p < s2.cl.nclust := by
    intro p hp
    obtain ⟨nd, h1⟩ := (Round.key hro p).1 (hk p hp)
    exact hcl p nd h1
  cases alg with
  | x =>
    obtain ⟨h3, e, hT⟩ := decideX_ok hso hnd hk hlt
    refine ⟨h3, ?_, hT⟩
    unfold partitionDecision
    simp only [e]
  | g =>
    obtain ⟨h3, e, hT⟩ := decideG_ok (c := c) rfl hso (by
      intro hh
      have := h.start.ne
      rw [← shape_keys hro.hsize hro.shape, hh] at this
      simp at this) (by
      intro p nd hp
      obtain ⟨nd', h1⟩ := (Round.key hro p).1 ⟨nd, hp⟩
      rw [hro.part]
      exact h.pop p nd' h1) hnd hk hlt
    refine ⟨h3, ?_, hT⟩
    unfold partitionDecision
    simp only [e]

/-- What holds after the decision. -/
structure After (alg : Alg) (c : Cfg R D n) (K M t : Nat) (live : Finset Nat) (s : St R n) (d : Int) : Prop where
  wf : Wf M [] [] live s
  settled : Settled c.nrow M c.data s
  start : s.keys ≠ [] → Start alg.mode K M t d s.keys live
  ncl : (s.ncl : Int) + 1 + d = live.card
  q : live.card ≤ s.keys.length + alg.mode.bound K M

theorem after_ok {cl : Sparse R n} {s0 s2 s3 : St R n} (h : Bd alg.mode c K M t d live s0)
    (hlt : s0.ncl < 18446744073709551616) (hro : RoundOk c M s0 s2)
    {rej : List Nat} (hnd : rej.Nodup) (hrej : ∀ p ∈ rej, p ∈ s2.keys)
    (hT : Taken c.nrow alg cl s2 rej s3) :
    ∃ d3, After alg c K M t (kept s2 rej live) s3 d3 ∧
      (alg = .x → d3 = d - 2 * rej.length) := by
  have hw2 := hro.wf h.wf
  have hk : ∀ p ∈ rej, ∃ nd, s2.hc p = some nd := fun p hp => (mem_keys' hw2).1 (hrej p hp)
  have hkl := hT.keys_length hw2 hnd hk
  have hcard := kept_card hw2 hnd hk
  have hkeys := shape_keys hro.hsize hro.shape
  have hw3 := hT.wf hw2 hk
  have hs3 := hT.settled hw2 hro.settled hk
  have hncl := h.ncl
  have hst := h.start
  have hsum := hst.sum
  have hz := hst.zero
  have hq := h.q
  rw [hkeys] at hkl
  have hsub3 : ∀ p ∈ s3.keys, p ∈ kept s2 rej live := by
    intro p hp
    obtain ⟨nd, h1⟩ := (mem_keys' hw3).1 hp
    exact hw3.key_live h1
  cases alg with
  | x =>
    have hn3 : s3.ncl = s0.ncl := (hT.nclX rfl).trans hro.ncl
    refine ⟨d - 2 * rej.length, ⟨hw3, hs3, ?_, by omega, by omega⟩, fun _ => rfl⟩
    intro hne
    refine ⟨hst.M_eq, hst.even, hst.two, hst.big, List.length_pos_iff.2 hne, by omega, hsub3, ?_⟩
    simp only [Alg.mode, reduceCtorEq, if_false] at hz ⊢
    by_cases hr : rej = []
    · subst hr
      have e1 : kept s2 [] live = live := by
        ext i
        rw [mem_kept]
        constructor
        · exact fun h => h.1
        · intro h; exact ⟨h, by rintro ⟨p, nd, j, h, _⟩; cases h⟩
      have e2 : ∀ p, p ∈ s3.keys ↔ p ∈ s0.keys := by
        intro p
        rw [← hkeys, mem_keys' hw3, mem_keys' hw2]
        constructor
        · rintro ⟨nd, h1⟩; exact ⟨nd, (hT.key.1 h1).2⟩
        · rintro ⟨nd, h1⟩; exact ⟨nd, hT.key.2 ⟨by simp, h1⟩⟩
      rw [e1]
      simp only [e2, List.length_nil]
      simpa using hz
    · have hr1 : 1 ≤ rej.length := List.length_pos_iff.2 hr
      have hz3 : 3 * d ≤ t + 1 := by
        split at hz
        · omega
        · split at hz <;> omega
      split
      · omega
      · split <;> omega
  | g =>
    simp only [Alg.mode, if_true] at hz
    have hn3 := hT.nclG rfl (by rw [hro.ncl]; omega) (by rw [hro.ncl]; exact hlt)
    rw [hro.ncl] at hn3
    refine ⟨d, ⟨hw3, hs3, ?_, by omega, by omega⟩, by intro h; cases h⟩
    intro hne
    refine ⟨hst.M_eq, hst.even, hst.two, hst.big, List.length_pos_iff.2 hne, by omega, hsub3, ?_⟩
    simp only [Alg.mode, if_true]
    exact hz

/-- The end of the loop. -/
theorem After.done {s3 : St R n} {d3 : Int} (h : After alg c K M t live s3 d3) :
    Done alg.mode c K M live s3 := by
  refine ⟨h.wf, h.settled.counts, fun hm => absurd hm alg.mode_ne,
    fun p nd j hp => (h.settled.nodes p nd j hp).2, ?_, h.q⟩
  intro r hr
  rcases h.settled.rows r hr with h2 | ⟨nd, j, h2, h3⟩
  · exact Or.inl h2.1
  · exact Or.inr ⟨_, nd, j, h2, h3⟩

/-- No partitions are left: splitting does nothing and no flag is set. -/
theorem After.stop {s3 : St R n} {d3 : Int} (h : After alg c K M t live s3 d3) (hk : s3.keys = []) :
    ∃ s4, initSplits c s3 = .ok s4 ∧ s4.keys = [] ∧ steady s4 = true ∧ Done alg.mode c K M live s4 := by
  have hd := h.done
  refine ⟨{ s3 with part := s3.assign }, ?_, hk, ?_, ?_⟩
  · unfold initSplits
    rw [hk]
    rfl
  · unfold steady
    show (s3.active.all fun b => !b) = true
    rw [List.all_eq_true]
    intro b hb
    cases b with
    | false => rfl
    | true =>
      exfalso
      obtain ⟨i, hi⟩ := List.mem_iff_getElem?.1 hb
      have hnone : ∀ p nd, s3.hc p ≠ some nd := by
        intro p nd hp
        have := (mem_keys' h.wf).2 ⟨nd, hp⟩
        rw [hk] at this; cases this
      rcases (h.wf.liveIff i).1 (h.wf.actLive i hi) with ⟨nd, h1⟩ | ⟨p, nd, j, h1, _⟩ | h1 | h1
      · exact hnone _ _ h1
      · exact hnone _ _ h1.1
      · rw [h.wf.finInact i h1] at hi; cases hi
      · cases h1
  · exact ⟨hd.wf.of_shape (fun _ => rfl) rfl rfl rfl rfl rfl, hd.counts, hd.fin, hd.nodes, hd.rows, hd.q⟩

/-- No flag is set once no partition is left. -/
theorem steady_of {M : Nat} {live : Finset Nat} {s : St R n} (h : Wf M [] [] live s) (hk : s.keys = []) :
    steady s = true := by
  unfold steady
  rw [List.all_eq_true]
  intro b hb
  cases b with
  | false => rfl
  | true =>
    exfalso
    obtain ⟨i, hi⟩ := List.mem_iff_getElem?.1 hb
    have hnone : ∀ p nd, s.hc p ≠ some nd := by
      intro p nd hp
      have := (mem_keys' h).2 ⟨nd, hp⟩
      rw [hk] at this; cases this
    rcases (h.liveIff i).1 (h.actLive i hi) with ⟨nd, h1⟩ | ⟨p, nd, j, h1, _⟩ | h1 | h1
    · exact hnone _ _ h1
    · exact hnone _ _ h1.1
    · rw [h.finInact i h1] at hi; cases hi
    · cases h1

end

section
variable [Field R] [LinearOrder R] [LinearOrder D] {alg : Alg} {c : Cfg R D n} {K M t : Nat} {d : Int}
  {live : Finset Nat} {s : XSt R n}

/-- What is assumed of the settings. -/
structure Fine (c : Cfg R D n) (sched : Nat → Nat → List Nat) (dec : Nat → List Nat → List Nat) (K : Nat) : Prop where
  big : MeansWithin c.nrow c.data c.dist c.big
  rows : 0 < c.nrow
  threads : 0 < c.reqThreads
  rowsLt : c.nrow < 4294967296
  cols : 0 < n
  complete : ∀ t i, Complete (Partition.effThreads c.reqThreads c.nrow)
    (Kmeans.threadRows c.nrow c.reqThreads) (sched t i)
  decNd : ∀ t l, l.Nodup → (dec t l).Nodup
  decSub : ∀ t l, l.Nodup → ∀ p ∈ dec t l, p ∈ l
  half : c.halfK * 2 = K
  minSize : 2 ≤ c.minSize
  iters : 1 ≤ c.maxIters

/-- A round up to the decision. -/
theorem round_ok {sched : Nat → Nat → List Nat} {dec : Nat → List Nat → List Nat} (hf : Fine c sched dec K)
    (h : XBd alg c K M t d live s) : ∃ s1, meanPhase c s = .ok s1 ∧ Means c s s1 ∧
      (∀ p nd, s.h.hc p = some nd → p < s1.cl.nclust) ∧
      (((∃ r, r < c.nrow ∧ s1.cl.nclust ≤ s.h.part r) ∧ iterate alg c (sched t) s1 = .error .ub) ∨
      ∃ h2 h3 d3, iterate alg c (sched t) s1 = .ok { s1 with h := h2 } ∧ RoundOk c M s.h h2 ∧
        partitionDecision alg c (dec t h2.keys) { s1 with h := h2 } = .ok { s1 with h := h3 } ∧
        Taken c.nrow alg s1.cl h2 (dec t h2.keys) h3 ∧
        After alg c K M t (kept h2 (dec t h2.keys) live) h3 d3 ∧
        (alg = .x → d3 = d - 2 * (dec t h2.keys).length)) := by
  obtain ⟨s1, e1, m1, k1⟩ := h.mean hf.rows hf.threads hf.rowsLt hf.cols
  refine ⟨s1, e1, m1, k1, ?_⟩
  have hw1 : Wf M [] [] live s1.h := by rw [m1.h]; exact h.bd.wf
  have hr1 : Ready c M s1.h := by rw [m1.h]; exact h.bd.ready
  rcases iterate_ok (alg := alg) hf.big hf.rows hf.threads hf.rowsLt (hf.complete t) hf.iters hw1 hr1 with
    ⟨⟨r, h1, h2⟩, e2⟩ | ⟨hp, h2, e2, hro⟩
  · left
    rw [m1.h] at h2
    exact ⟨⟨r, h1, h2⟩, e2⟩
  · right
    rw [m1.h] at hro
    obtain ⟨h3, e3, hT⟩ := decision_ok (s := s) (s2 := { s1 with h := h2 }) h.bd hro k1
      (hf.decNd t h2.keys (nodup_keys h2)) (hf.decSub t h2.keys (nodup_keys h2))
    obtain ⟨d3, hA, hd3⟩ := after_ok h.bd h.nclLt hro (hf.decNd t h2.keys (nodup_keys h2)) (hf.decSub t h2.keys (nodup_keys h2)) hT
    exact ⟨h2, h3, d3, e2, hro, e3, hT, hA, hd3⟩

/-- The split at the end of a round. -/
theorem split_ok {sched : Nat → Nat → List Nat} {dec : Nat → List Nat → List Nat} (hf : Fine c sched dec K)
    {h3 : St R n} {d3 : Int} (hA : After alg c K M t live h3 d3) (hg : alg = .g → t + 7 ≤ 3 * K)
    (hcap : h3.ncl ≤ K) (cl : Sparse R n) (loc : Nat → Nat) (hneat : Neat cl) :
    ∃ h4, initSplits c h3 = .ok h4 ∧
      (h4.keys = [] → steady h4 = true ∧ ∃ live4, Done alg.mode c K M live4 h4) ∧
      (h4.keys ≠ [] → h3.keys ≠ [] ∧ ∃ live4 d4, XBd alg c K M (t + 1) d4 live4 ⟨h4, cl, loc⟩ ∧
        (∀ f, (h4.final f).isSome → f ∈ live) ∧
        h4.gen.maxId + 1 ≤ max (h3.gen.maxId + 1) (live4.card + h3.keys.length)) := by
  by_cases hk : h3.keys = []
  · obtain ⟨h4, e4, hk4, hs4, hd4⟩ := hA.stop hk
    exact ⟨h4, e4, fun _ => ⟨hs4, live, hd4⟩, fun hne => absurd hk4 hne⟩
  · obtain ⟨h4, e4, ha4, hp4, live4, d4, hfin, hmax, hlt, -, hdone, hbd⟩ := initSplits_ok hA.wf (hA.start hk) hf.big hA.settled
      (fun hm => absurd hm alg.mode_ne) hA.ncl hA.q hf.half hf.minSize (by
        intro hm
        apply hg
        cases alg
        · cases hm
        · rfl) hcap
    refine ⟨h4, e4, fun hk4 => ⟨steady_of (hdone hk4).wf hk4, live4, hdone hk4⟩, fun hk4 => ⟨hk, live4, d4,
      ⟨hbd hk4, ?_, hneat, hlt⟩, hfin, hmax⟩⟩
    intro r _
    show h4.part r = h4.assign r
    rw [hp4, ha4]

/-- The ids of x-means stay low enough for the means of the partitions. -/
structure Low (K t : Nat) (live : Finset Nat) (s : XSt R n) : Prop where
  room : 2 * K - 1 ≤ s.cl.nclust
  low : ∀ f, (s.h.final f).isSome → f < 2 * K - 1
  hi : ∃ (k' : Nat) (d' : Int), s.h.gen.maxId + 1 ≤ max (2 * K - 1) (live.card + k') ∧ (t : Int) + 2 * k' ≤ K + 1 + d' ∧
    3 * d' ≤ t ∧ (t = 0 → k' = 0)

theorem loopX_ok {sched : Nat → Nat → List Nat} {dec : Nat → List Nat → List Nat} (hf : Fine c sched dec K) :
    ∀ (fuel t : Nat) (d : Int) (live : Finset Nat) (s : XSt R n), XBd .x c K M t d live s → Low K t live s →
      K + K / 2 ≤ t + fuel →
      ∃ s', loop .x c dec sched fuel t s = .ok (some s') ∧ ∃ live', Done .x c K M live' s'.h := by
  intro fuel
  induction fuel with
  | zero =>
    intro t d live s h _ hfu
    have h1 := h.bd.start.sum
    have h2 := h.bd.q
    have h3 := h.bd.start.ne
    simp only [Mode.bound, Alg.mode, reduceCtorEq, if_false] at h2
    omega
  | succ fuel ih =>
    intro t d live s h hl hfu
    obtain ⟨s1, e1, m1, k1, hh⟩ := round_ok hf h
    have hpd : ∀ r, r < c.nrow → s.h.part r < s1.cl.nclust := by
      intro r hr
      rcases h.bd.ready.rows r hr with ⟨h1, _⟩ | ⟨nd, h1, _⟩
      · rw [h.home r hr]
        have := hl.low _ h1
        have := hl.room
        have := m1.mono
        omega
      · exact k1 _ nd h1
    rcases hh with ⟨⟨r, hr, h1⟩, _⟩ | ⟨h2, h3, d3, e2, hro, e3, hT, hA, hd3⟩
    · have := hpd r hr
      omega
    unfold loop
    simp only [e1, e2, e3]
    by_cases hcap : c.atCap h3 = true
    · rw [if_pos hcap]
      exact ⟨_, rfl, _, hA.done⟩
    · rw [if_neg hcap]
      have hncl : h3.ncl ≤ K := by
        unfold Cfg.atCap at hcap
        simp only [decide_eq_true_eq] at hcap
        have := hf.half
        omega
      obtain ⟨h4, e4, hdone, hgo⟩ := split_ok hf hA (by intro h; cases h) hncl s1.cl s1.loc m1.neat
      simp only [e4]
      by_cases hk : h4.keys = []
      · rw [if_pos hk]
        obtain ⟨hst, live4, hd4⟩ := hdone hk
        rw [if_pos hst]
        exact ⟨_, rfl, live4, hd4⟩
      · rw [if_neg hk]
        obtain ⟨hk3, live4, d4, hx, hfin, hmax⟩ := hgo hk
        refine ih (t + 1) d4 live4 ⟨h4, s1.cl, s1.loc⟩ hx ?_ (by omega)
        have hn3 : h3.ncl = s.h.ncl := (hT.nclX rfl).trans hro.ncl
        have hw2 := hro.wf h.bd.wf
        have hcard := kept_card hw2 (hf.decNd t h2.keys (nodup_keys h2)) fun p hp => (mem_keys' hw2).1 (hf.decSub t h2.keys (nodup_keys h2) p hp)
        have hmaxId : h3.gen.maxId = s.h.gen.maxId := hT.maxId.trans (by rw [hro.gen])
        obtain ⟨k', d', q1, q2, q3, q4⟩ := hl.hi
        have hsum := h.bd.start.sum
        have hne := h.bd.start.ne
        have hz := h.bd.start.zero
        have hz3 := (hA.start hk3).zero
        have hsum3 := (hA.start hk3).sum
        have hncl0 := h.bd.ncl
        have hncl3 := hA.ncl
        have heven := h.bd.start.even
        have htwo := h.bd.start.two
        simp only [Alg.mode, reduceCtorEq, if_false] at hz hz3
        have hd : 3 * d ≤ t + 1 := by
          split at hz
          · omega
          · split at hz <;> omega
        have hd3' : 3 * d3 ≤ t + 1 := by
          split at hz3
          · omega
          · split at hz3 <;> omega
        have hid : h3.gen.maxId + 1 ≤ 2 * K - 1 := by
          rw [hmaxId]
          omega
        refine ⟨Nat.le_trans hl.room m1.mono, ?_, h3.keys.length, d3, ?_, ?_, ?_, by omega⟩
        · intro f hff
          have := (hA.wf.all f).2 (Or.inl (hfin f hff))
          omega
        · show h4.gen.maxId + 1 ≤ _
          omega
        · push_cast
          omega
        · push_cast
          omega

theorem maxHnodes_floor {kmax : Nat} (h2 : 2 ≤ kmax) (hlt : kmax < 1073741824) :
    maxHnodes (hclustFloor kmax) = 2 * hclustFloor kmax - 1 := by
  have hpos : hclustFloor kmax ≠ 0 := by
    unfold hclustFloor
    exact Nat.pos_iff_ne_zero.1 (Nat.two_pow_pos _)
  have hle : hclustFloor kmax ≤ kmax := Nat.log2_self_le (by omega)
  rw [maxHnodes_eq hpos (by omega)]
  have : Nat.log2 (hclustFloor kmax) = Nat.log2 kmax := by
    unfold hclustFloor
    exact Nat.log2_two_pow
  rw [this]
  rfl

theorem start_ok (hbig : MeansWithin c.nrow c.data c.dist c.big) (hk2 : 2 ≤ c.kmax) (hklt : c.kmax < 1073741824) (hN : 0 < c.nrow) (alg : Alg)
    {it : HInit R n} (hit : Startable c it) : ∃ s, start c it = .ok s ∧
      XBd alg c (hclustFloor c.kmax) c.maxNodes 0 0 {0, 1, 2} s ∧
      Low (hclustFloor c.kmax) 0 {0, 1, 2} s := by
  obtain ⟨s0, m0, m1, e0, e1, hsm⟩ := init_ok (c := c) hk2 hklt hbig hit
  obtain ⟨z1, z2, z3, z4, z5, z6⟩ := sizes (c := c) hk2 hklt
  refine ⟨⟨started c m0 m1, Sparse.create (maxHnodes (c.halfK * 2)), fun _ => maxHnodes (c.halfK * 2)⟩, ?_,
    ⟨started_bd _ hN hk2 hklt m0 m1 hsm, fun _ _ => rfl, neat_create _, by show 2 < _; omega⟩, ?_, ?_, 0, 0, ?_, ?_, ?_, fun _ => rfl⟩
  · unfold start
    simp only [e0, e1]
  · show 2 * _ - 1 ≤ maxHnodes (c.halfK * 2)
    rw [z1, maxHnodes_floor hk2 hklt]
  · intro f hf; cases hf
  · show 2 + 1 ≤ _
    omega
  · omega
  · omega

/-- Every run of x-means ends normally. -/
theorem runX_ok {sched : Nat → Nat → List Nat} {dec : Nat → List Nat → List Nat}
    (hf : Fine c sched dec (hclustFloor c.kmax)) (hk2 : 2 ≤ c.kmax) (hklt : c.kmax < 1073741824)
    {it : HInit R n} (hit : Startable c it) {fuel : Nat} (hfu : c.kmax + c.kmax / 2 ≤ fuel) :
    ∃ s, run .x c it dec sched fuel = .ok (some s) ∧ Finished .x c s := by
  obtain ⟨s0, e0, hx, hl⟩ := start_ok hf.big hk2 hklt hf.rows .x hit
  have z4 := (sizes (c := c) hk2 hklt).2.2.2.1
  obtain ⟨s, e, live, hd⟩ := loopX_ok hf fuel 0 0 _ s0 hx hl (by omega)
  refine ⟨completeFinal s.h, ?_, hd.finished⟩
  unfold run
  simp only [e0, e]

/-- The rounds of g-means in which the id generator cannot run out. -/
theorem loopG_ok {sched : Nat → Nat → List Nat} {dec : Nat → List Nat → List Nat} (hf : Fine c sched dec K) :
    ∀ (fuel t : Nat) (d : Int) (live : Finset Nat) (s : XSt R n), XBd .g c K M t d live s →
      t + fuel + 6 ≤ 3 * K →
      loop .g c dec sched fuel t s = .error .ub ∨ loop .g c dec sched fuel t s = .ok none ∨
      ∃ s', loop .g c dec sched fuel t s = .ok (some s') ∧ ∃ live', Done .g c K M live' s'.h := by
  intro fuel
  induction fuel with
  | zero => intro t d live s _ _; exact Or.inr (Or.inl rfl)
  | succ fuel ih =>
    intro t d live s h hfu
    obtain ⟨s1, e1, m1, k1, hh⟩ := round_ok hf h
    unfold loop
    rcases hh with ⟨_, e2⟩ | ⟨h2, h3, d3, e2, hro, e3, hT, hA, hd3⟩
    · left; simp only [e1, e2]
    · simp only [e1, e2, e3]
      by_cases hcap : c.atCap h3 = true
      · rw [if_pos hcap]
        exact Or.inr (Or.inr ⟨_, rfl, _, hA.done⟩)
      · rw [if_neg hcap]
        have hncl : h3.ncl ≤ K := by
          unfold Cfg.atCap at hcap
          simp only [decide_eq_true_eq] at hcap
          have := hf.half
          omega
        obtain ⟨h4, e4, hdone, hgo⟩ := split_ok hf hA (fun _ => by omega) hncl s1.cl s1.loc m1.neat
        simp only [e4]
        by_cases hk : h4.keys = []
        · rw [if_pos hk]
          obtain ⟨hst, live4, hd4⟩ := hdone hk
          rw [if_pos hst]
          exact Or.inr (Or.inr ⟨_, rfl, live4, hd4⟩)
        · rw [if_neg hk]
          obtain ⟨hk3, live4, d4, hx, _, _⟩ := hgo hk
          exact ih (t + 1) d4 live4 ⟨h4, s1.cl, s1.loc⟩ hx (by omega)

theorem runG_ok {sched : Nat → Nat → List Nat} {dec : Nat → List Nat → List Nat}
    (hf : Fine c sched dec (hclustFloor c.kmax)) (hk2 : 2 ≤ c.kmax) (hklt : c.kmax < 1073741824)
    {it : HInit R n} (hit : Startable c it) {fuel : Nat} (hfu : fuel + 6 ≤ 3 * hclustFloor c.kmax) :
    run .g c it dec sched fuel = .error .ub ∨ run .g c it dec sched fuel = .ok none ∨
    ∃ s, run .g c it dec sched fuel = .ok (some s) ∧ Finished .g c s := by
  obtain ⟨s0, e0, hx, _⟩ := start_ok hf.big hk2 hklt hf.rows .g hit
  unfold run
  rcases loopG_ok hf fuel 0 0 _ s0 hx (by omega) with e | e | ⟨s, e, live, hd⟩
  · left; simp only [e0, e]
  · right; left; simp only [e0, e]
  · right; right
    refine ⟨completeFinal s.h, ?_, hd.finished⟩
    simp only [e0, e]

end

end Knor.Xmeans
