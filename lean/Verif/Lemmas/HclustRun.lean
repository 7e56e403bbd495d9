import Verif.Lemmas.HclustSplit

/-! Rounds of hierarchical clustering: iterations, splitting, removal. -/

namespace Knor.Hclust

open Knor Knor.Par Knor.Spec

variable {R D : Type _} {n : Nat}

theorem Wf.congr {M : Nat} {dn dn' orph orph' : List Nat} {live : Finset Nat} {s : St R n}
    (h : Wf M dn orph live s) (hd : ∀ p, p ∈ dn' ↔ p ∈ dn) (ho : ∀ i, i ∈ orph' ↔ i ∈ orph) :
    Wf M dn' orph' live s := by
  have hopen : ∀ p (nd : Node R n), Open dn' s p nd ↔ Open dn s p nd := by
    intro p nd; unfold Open; rw [hd]
  have hchild : ∀ i, Child dn' s i ↔ Child dn s i := by
    intro i; unfold Child; simp only [hopen]
  refine ⟨h.lenA, h.lenC, h.hsz, h.keyLt, ?_, ?_, ?_, ?_, ?_, ?_, h.finInact, h.finNone, ?_, ?_, ?_,
    h.nodup, h.disj, h.all, h.maxLt, h.actLive⟩
  · intro p hp; rw [hchild]; exact h.dead p ((hd p).1 hp)
  · intro p nd; rw [hopen]; exact h.keyAct p nd
  · intro p nd j; rw [hopen]; exact h.sideAct p nd j
  · intro p nd; rw [hopen]; exact h.sidesNe p nd
  · intro p nd j; rw [hopen]; exact h.sideNone p nd j
  · intro p q nd nd' j j'; rw [hopen, hopen]; exact h.uniq p q nd nd' j j'
  · intro f hf; rw [hchild]; exact h.finChild f hf
  · intro i hi; rw [hchild]; exact h.orphOk i ((ho i).1 hi)
  · intro i; rw [hchild, ho]; exact h.liveIff i

/-! ### Iterations -/

/-- Every recorded centroid is the mean of the rows of its cluster. -/
def FinMean [Field R] (N : Nat) (data : Nat → Row R n) (s : St R n) : Prop :=
  ∀ f v, s.final f = some v → v = meanOf N data s.assign f

theorem size_congr {N : Nat} {a a' : Nat → Nat} {i : Nat} (h : ∀ r, r < N → (a' r = i ↔ a r = i)) :
    size N a' i = size N a i := by
  unfold size
  congr 1
  apply Finset.filter_congr
  intro r hr
  exact h r (Finset.mem_range.1 hr)

theorem meanOf_congr [Field R] {N : Nat} {data : Nat → Row R n} {a a' : Nat → Nat} {i : Nat}
    (h : ∀ r, r < N → (a' r = i ↔ a r = i)) : meanOf N data a' i = meanOf N data a i := by
  funext x
  unfold meanOf
  rw [size_congr h]
  congr 2
  apply Finset.sum_congr _ fun _ _ => rfl
  apply Finset.filter_congr
  intro r hr
  exact h r (Finset.mem_range.1 hr)

/-- What the iterations of a round do. -/
structure RoundOk [Field R] (c : Cfg R D n) (M : Nat) (s s' : St R n) : Prop where
  shape : ∀ p, shape s' p = shape s p
  active : s'.active = s.active
  hsize : s'.hsize = s.hsize
  gen : s'.gen = s.gen
  final : s'.final = s.final
  part : s'.part = s.part
  ncl : s'.ncl = s.ncl
  lenC : s'.counts.length = s.counts.length
  settled : Settled c.nrow M c.data s'
  fin : FinMean c.nrow c.data s → FinMean c.nrow c.data s'

theorem IterOk.fin [Field R] [LE R] [LE D] {c : Cfg R D n} {M : Nat} {s s' : St R n} {live : Finset Nat}
    (h : IterOk c M s s') (hw : Wf M [] [] live s) (hf : FinMean c.nrow c.data s) :
    FinMean c.nrow c.data s' := by
  intro f v hv
  rw [h.final] at hv
  rw [hf f v hv]
  exact (meanOf_congr (h.others f (hw.finNone f (by rw [hv]; rfl)) (hw.finChild f (by rw [hv]; rfl)))).symm

theorem RoundOk.wf [Field R] {c : Cfg R D n} {M : Nat} {s s' : St R n} {live : Finset Nat}
    (h : RoundOk c M s s') (hw : Wf M [] [] live s) : Wf M [] [] live s' :=
  hw.of_shape h.shape h.active h.lenC h.hsize h.gen h.final

theorem iters_ok [Field R] [LinearOrder R] [LinearOrder D] {c : Cfg R D n} {M : Nat}
    {live : Finset Nat} (hbig : MeansWithin c.nrow c.data c.dist c.big)
    (hN : 0 < c.nrow) (hT : 0 < c.reqThreads) (hlt : c.nrow < 4294967296) {sched : Nat → List Nat}
    (hc : ∀ i, Complete (Partition.effThreads c.reqThreads c.nrow)
      (Kmeans.threadRows c.nrow c.reqThreads) (sched i)) :
    ∀ (l : List Nat) (s : St R n), l ≠ [] → Wf M [] [] live s → Ready c M s →
      ∃ s', forEach (fun s i => iteration c (sched i) s) l s = .ok s' ∧ RoundOk c M s s' := by
  intro l
  induction l with
  | nil => intro s h; exact absurd rfl h
  | cons x l ih =>
    intro s _ hw hr
    obtain ⟨s1, e1, h1⟩ := iteration_ok hw hr hN hT hlt (hc x)
    by_cases hl : l = []
    · subst hl
      refine ⟨s1, by simp only [forEach, e1], ?_⟩
      exact ⟨h1.shape, h1.active, h1.hsize, h1.gen, h1.final, h1.part, h1.ncl, h1.lenC, h1.settled,
        h1.fin hw⟩
    · obtain ⟨s2, e2, h2⟩ := ih s1 hl (h1.wf hw) (h1.settled.ready hbig)
      refine ⟨s2, by simp only [forEach, e1, e2], ?_⟩
      exact ⟨fun p => (h2.shape p).trans (h1.shape p), h2.active.trans h1.active,
        h2.hsize.trans h1.hsize, h2.gen.trans h1.gen, h2.final.trans h1.final, h2.part.trans h1.part,
        h2.ncl.trans h1.ncl, h2.lenC.trans h1.lenC, h2.settled, fun hf => h2.fin (h1.fin hw hf)⟩

/-! ### Splitting -/

/-- The three algorithms: hierarchical clustering, x-means and g-means. -/
inductive Mode where
  | h
  | x
  | g
  deriving DecidableEq

/-- Bound of `live.card` minus the number of partitions. -/
def Mode.bound (m : Mode) (K M : Nat) : Nat := if m = .g then M else K + K / 2 + 1

/-- The constants of a split: the partitions at its start, the ids in use then, the number of rounds
before it and how many ids `ncl` does not count (which is negative when it counts too many). -/
structure Start (m : Mode) (K M t : Nat) (d0 : Int) (ids : List Nat) (live0 : Finset Nat) : Prop where
  M_eq : M = 4 * K - 1
  even : K % 2 = 0
  two : 2 ≤ K
  big : M < 4294967296
  ne : 1 ≤ ids.length
  sum : t + 1 + 2 * ids.length ≤ live0.card
  sub : ∀ p ∈ ids, p ∈ live0
  zero : if m = .g then d0 ≤ t else
    if 0 ∈ ids then 3 * d0 ≤ t else if 0 ∈ live0 then 3 * d0 ≤ t + 1 else 3 * d0 + 1 ≤ t

/-- The invariant of the loop over the partitions: `l` are still to be treated, `dn` are done, `nk`
are the new partitions, `orph` the sides that are being treated. -/
structure Mid [Field R] (m : Mode) (c : Cfg R D n) (K M t g0 : Nat) (d0 : Int) (F0 : Nat → Prop) (ids : List Nat)
    (live0 : Finset Nat) (l dn nk orph : List Nat) (live : Finset Nat) (s : St R n) : Prop where
  start : Start m K M t d0 ids live0
  wf : Wf M dn orph live s
  split : ∀ p, p ∈ ids ↔ p ∈ l ∨ p ∈ dn
  lnd : l.Nodup
  ldn : ∀ p ∈ l, p ∉ dn
  old : ∀ p ∈ l, ∃ nd, s.hc p = some nd ∧ ∀ j, nd.side j ∈ live0 ∧
    nd.cl.means j = meanOf c.nrow c.data s.assign (nd.side j)
  empty : ∀ p ∈ ids, size c.nrow s.assign p = 0
  nkIff : ∀ p, p ∈ nk ↔ ∃ nd, Open dn s p nd ∧ p ∉ l
  nkNd : nk.Nodup
  nkOld : ∀ p ∈ nk, p ∈ live0 ∧ p ∉ ids
  fresh : ∀ p ∈ nk, ∀ nd, s.hc p = some nd → nd.conv = false ∧ ∀ j, ∃ r, r < c.nrow ∧ nd.cl.means j = c.data r
  orphOld : ∀ i ∈ orph, i ∈ live0
  rows : ∀ r, r < c.nrow → (s.final (s.assign r)).isSome ∨ s.assign r ∈ nk ∨ s.assign r ∈ orph ∨
    ∃ p nd j, p ∈ l ∧ s.hc p = some nd ∧ s.assign r = nd.side j
  counts : ∀ i, i < M → s.counts[i]? = some (size c.nrow s.assign i : Int)
  fin : m = .h → FinMean c.nrow c.data s
  sub : live0 ⊆ live
  card : live.card = live0.card + 2 * nk.length
  ncl : (s.ncl : Int) + 1 + d0 + (if 0 ∈ live ∧ 0 ∉ live0 then 1 else 0) = live.card
  q : live.card ≤ ids.length + nk.length + m.bound K M
  pop : ∀ p ∈ nk, 0 < size c.nrow s.assign p
  finOld : ∀ f, (s.final f).isSome → f ∈ live0
  hi : s.gen.maxId + 1 ≤ max g0 live.card
  /-- Large clusters are recorded only when there are many clusters. -/
  cause : ∀ f, (s.final f).isSome → F0 f ∨ size c.nrow s.assign f < c.minSize ∨
    (0 ≤ d0 → K + 3 + 2 * ids.length ≤ 2 * (live0.card + nk.length))

section
variable [Field R] {m : Mode} {c : Cfg R D n} {K M t g0 : Nat} {d0 : Int} {F0 : Nat → Prop} {ids : List Nat} {live0 : Finset Nat}
  {l dn nk orph : List Nat} {live : Finset Nat} {s : St R n}

theorem Mid.perm {orph' : List Nat} (h : Mid m c K M t g0 d0 F0 ids live0 l dn nk orph live s)
    (ho : ∀ i, i ∈ orph' ↔ i ∈ orph) : Mid m c K M t g0 d0 F0 ids live0 l dn nk orph' live s :=
  ⟨h.start, h.wf.congr (fun _ => Iff.rfl) ho, h.split, h.lnd, h.ldn, h.old, h.empty, h.nkIff, h.nkNd,
    h.nkOld, h.fresh, fun i hi => h.orphOld i ((ho i).1 hi), fun r hr => by rw [ho]; exact h.rows r hr,
    h.counts, h.fin, h.sub, h.card, h.ncl, h.q, h.pop, h.finOld, h.hi, h.cause⟩

/-- The next partition is going to be removed. -/
theorem Mid.kill {p : Nat} (h : Mid m c K M t g0 d0 F0 ids live0 (p :: l) dn nk [] live s) {nd : Node R n}
    (hp : s.hc p = some nd) :
    Mid m c K M t g0 d0 F0 ids live0 l (p :: dn) nk [nd.zero, nd.one] live s := by
  have hopen : Open dn s p nd := ⟨hp, h.ldn p (by simp)⟩
  have hnd := List.nodup_cons.1 h.lnd
  obtain ⟨nd', e1, hold⟩ := h.old p (by simp)
  rw [hp] at e1; cases e1
  have hside : ∀ i, i ∈ [nd.zero, nd.one] ↔ ∃ j, nd.side j = i := by
    intro i; rw [mem_sides]; simp
  refine ⟨h.start, h.wf.kill hopen, ?_, hnd.2, ?_, ?_, h.empty, ?_, h.nkNd, h.nkOld, h.fresh, ?_, ?_,
    h.counts, h.fin, h.sub, h.card, h.ncl, h.q, h.pop, h.finOld, h.hi, h.cause⟩
  · intro q
    rw [h.split q, List.mem_cons, List.mem_cons]
    constructor
    · rintro ((h1 | h1) | h1)
      · exact Or.inr (Or.inl h1)
      · exact Or.inl h1
      · exact Or.inr (Or.inr h1)
    · rintro (h1 | h1 | h1)
      · exact Or.inl (Or.inr h1)
      · exact Or.inl (Or.inl h1)
      · exact Or.inr h1
  · intro q hq hd
    rcases List.mem_cons.1 hd with rfl | hd
    · exact hnd.1 hq
    · exact h.ldn q (List.mem_cons_of_mem _ hq) hd
  · intro q hq; exact h.old q (List.mem_cons_of_mem _ hq)
  · intro q
    rw [h.nkIff q]
    unfold Open
    simp only [List.mem_cons, not_or]
    constructor
    · rintro ⟨m, ⟨h1, h2⟩, h3, h4⟩
      exact ⟨m, ⟨h1, h3, h2⟩, h4⟩
    · rintro ⟨m, ⟨h1, h3, h2⟩, h4⟩
      exact ⟨m, ⟨h1, h2⟩, h3, h4⟩
  · intro i hi
    obtain ⟨j, rfl⟩ := (hside i).1 hi
    exact (hold j).1
  · intro r hr
    rcases h.rows r hr with h1 | h1 | h1 | ⟨q, m, j, h1, h2, h3⟩
    · exact Or.inl h1
    · exact Or.inr (Or.inl h1)
    · cases h1
    · rcases List.mem_cons.1 h1 with rfl | h1
      · rw [hp] at h2; cases h2
        exact Or.inr (Or.inr (Or.inl ((hside _).2 ⟨j, h3.symm⟩)))
      · exact Or.inr (Or.inr (Or.inr ⟨q, m, j, h1, h2, h3⟩))

/-- A side becomes a final cluster. -/
theorem Mid.finish {i : Nat} (h : Mid m c K M t g0 d0 F0 ids live0 l dn nk (i :: orph) live s) (hi : i ∉ orph)
    {v : Row R n} (hv : v = meanOf c.nrow c.data s.assign i)
    (hcz : size c.nrow s.assign i < c.minSize ∨ K < s.ncl) :
    Mid m c K M t g0 d0 F0 ids live0 l dn nk orph live { s with
      active := s.active.set i false, final := Function.update s.final i (some v) } := by
  refine ⟨h.start, h.wf.finish hi v, h.split, h.lnd, h.ldn, h.old, h.empty, h.nkIff, h.nkNd,
    h.nkOld, h.fresh, fun i hi => h.orphOld i (List.mem_cons_of_mem _ hi), ?_, h.counts, ?_, h.sub,
    h.card, h.ncl, h.q, h.pop, ?_, h.hi, ?_⟩
  · intro r hr
    show ((Function.update s.final i (some v)) (s.assign r)).isSome ∨ _
    by_cases hri : s.assign r = i
    · rw [hri, Function.update_self]; exact Or.inl rfl
    · rw [Function.update_of_ne hri]
      rcases h.rows r hr with h1 | h1 | h1 | h1
      · exact Or.inl h1
      · exact Or.inr (Or.inl h1)
      · rcases List.mem_cons.1 h1 with h1 | h1
        · exact absurd h1 hri
        · exact Or.inr (Or.inr (Or.inl h1))
      · exact Or.inr (Or.inr (Or.inr h1))
  · intro hm f w hf
    change Function.update s.final i (some v) f = some w at hf
    by_cases hfi : f = i
    · subst hfi
      rw [Function.update_self] at hf
      cases hf; exact hv
    · rw [Function.update_of_ne hfi] at hf
      exact h.fin hm f w hf
  · intro f hf
    change ((Function.update s.final i (some v)) f).isSome at hf
    by_cases hfi : f = i
    · rw [hfi]; exact h.orphOld i (by simp)
    · rw [Function.update_of_ne hfi] at hf; exact h.finOld f hf
  · intro f hf
    change ((Function.update s.final i (some v)) f).isSome at hf
    by_cases hfi : f = i
    · rw [hfi]
      rcases hcz with h1 | h1
      · exact Or.inr (Or.inl h1)
      · right; right
        intro hd
        have h2 := h.ncl
        have h3 := h.card
        have h4 := h.start.sum
        split at h2 <;> omega
    · rw [Function.update_of_ne hfi] at hf; exact h.cause f hf

/-- A side becomes a partition. -/
theorem Mid.spawn {i : Nat} (h : Mid m c K M t g0 d0 F0 ids live0 l dn nk (i :: orph) live s) (hi : i ∉ orph)
    (x y : Nat) (hx : x < c.nrow) (hy : y < c.nrow) (hpop : 0 < size c.nrow s.assign i) (hM : live.card + 2 ≤ M)
    (hq : live.card + 2 ≤ ids.length + (nk.length + 1) + m.bound K M) :
    spawnOne c i (some x) (some y) s = .ok (spawned c s i x y) ∧ ∃ live', live'.card = live.card + 2 ∧
      Mid m c K M t g0 d0 F0 ids live0 l dn (i :: nk) orph live' (spawned c s i x y) := by
  obtain ⟨e, hw, g1, g2, g3⟩ := spawnOne_ok (c := c) (x := x) (y := y) h.start.big h.wf hi hM
  refine ⟨e, insert s.gen.split.1.1 (insert s.gen.split.1.2 live), ?_, ?_⟩
  · rw [Finset.card_insert_of_notMem, Finset.card_insert_of_notMem g2]
    rw [Finset.mem_insert, not_or]
    exact ⟨g3, g1⟩
  have hcard : (insert s.gen.split.1.1 (insert s.gen.split.1.2 live)).card = live.card + 2 := by
    rw [Finset.card_insert_of_notMem, Finset.card_insert_of_notMem g2]
    rw [Finset.mem_insert, not_or]
    exact ⟨g3, g1⟩
  obtain ⟨o1, o2, o3, o4⟩ := h.wf.orphOk i (by simp)
  have hhc : (spawned c s i x y).hc = Function.update s.hc i (some
      { cl := ((Clusters.empty).setMean (c.data x) 0).setMean (c.data y) 1
        zero := s.gen.split.1.1, one := s.gen.split.1.2, conv := false }) := rfl
  have hne : ∀ q nd, s.hc q = some nd → q ≠ i := by
    rintro q nd hq rfl; rw [o2] at hq; cases hq
  have hkeep : ∀ q nd, s.hc q = some nd → (spawned c s i x y).hc q = some nd := by
    intro q nd hq
    rw [hhc, Function.update_of_ne (hne q nd hq)]; exact hq
  have hsub : live ⊆ insert s.gen.split.1.1 (insert s.gen.split.1.2 live) := by
    intro q hq
    rw [Finset.mem_insert, Finset.mem_insert]; exact Or.inr (Or.inr hq)
  have hidn : i ∉ dn := by
    intro hd
    obtain ⟨⟨nd', h1⟩, _⟩ := h.wf.dead i hd
    rw [o2] at h1; cases h1
  have hil : i ∉ l := by
    intro hl
    obtain ⟨nd', h1, _⟩ := h.old i hl
    rw [o2] at h1; cases h1
  have hiids : i ∉ ids := by
    intro hh
    rcases (h.split i).1 hh with h1 | h1
    · exact hil h1
    · exact hidn h1
  have hink : i ∉ nk := by
    intro hh
    obtain ⟨nd, h1, _⟩ := (h.nkIff i).1 hh
    exact hne i nd h1.1 rfl
  refine ⟨h.start, hw, h.split, h.lnd, h.ldn, ?_, h.empty, ?_, List.nodup_cons.2 ⟨hink, h.nkNd⟩, ?_, ?_,
    fun q hq => h.orphOld q (List.mem_cons_of_mem _ hq), ?_, h.counts, h.fin,
    fun q hq => hsub (h.sub hq), ?_, ?_, ?_, ?_, h.finOld, ?_, ?_⟩
  · intro q hq
    obtain ⟨nd, h1, h2⟩ := h.old q hq
    exact ⟨nd, hkeep q nd h1, h2⟩
  · intro q
    rw [List.mem_cons, h.nkIff q]
    by_cases hqi : q = i
    · subst hqi
      refine ⟨fun _ => ⟨_, ⟨by rw [hhc, Function.update_self], hidn⟩, hil⟩, fun _ => Or.inl rfl⟩
    · unfold Open
      rw [hhc, Function.update_of_ne hqi]
      simp [hqi]
  · intro q hq
    rcases List.mem_cons.1 hq with rfl | hq
    · exact ⟨h.orphOld q (by simp), hiids⟩
    · exact h.nkOld q hq
  · intro q hq nd hnd
    rw [hhc] at hnd
    by_cases hqi : q = i
    · subst hqi
      rw [Function.update_self] at hnd
      cases hnd
      refine ⟨rfl, fun j => ?_⟩
      have : j = 0 ∨ j = 1 := by omega
      rcases this with rfl | rfl
      · exact ⟨x, hx, rfl⟩
      · exact ⟨y, hy, rfl⟩
    · rw [Function.update_of_ne hqi] at hnd
      rcases List.mem_cons.1 hq with hq | hq
      · exact absurd hq hqi
      · exact h.fresh q hq nd hnd
  · intro r hr
    show (s.final (s.assign r)).isSome ∨ s.assign r ∈ i :: nk ∨ s.assign r ∈ orph ∨ ∃ p nd j,
      p ∈ l ∧ (spawned c s i x y).hc p = some nd ∧ s.assign r = nd.side j
    rcases h.rows r hr with h1 | h1 | h1 | ⟨p, nd, j, h1, h2, h3⟩
    · exact Or.inl h1
    · exact Or.inr (Or.inl (List.mem_cons_of_mem _ h1))
    · rcases List.mem_cons.1 h1 with h1 | h1
      · exact Or.inr (Or.inl (by rw [h1]; simp))
      · exact Or.inr (Or.inr (Or.inl h1))
    · exact Or.inr (Or.inr (Or.inr ⟨p, nd, j, h1, hkeep p nd h2, h3⟩))
  · rw [hcard, h.card, List.length_cons]; omega
  · rw [hcard, Nat.cast_add, ← h.ncl]
    show ((s.ncl + (if s.gen.split.1.1 > 0 then 1 else 0) + (if s.gen.split.1.2 > 0 then 1 else 0) : Nat)
      : Int) + 1 + d0 + _ = _
    simp only [Finset.mem_insert]
    by_cases a0 : s.gen.split.1.1 = 0
    · have hL : 0 ∉ live := a0 ▸ g1
      have hL0 : 0 ∉ live0 := fun hh => hL (h.sub hh)
      have b0 : 0 < s.gen.split.1.2 := by
        rcases Nat.eq_zero_or_pos s.gen.split.1.2 with e | e
        · exact absurd (a0.trans e.symm) g3
        · exact e
      simp [a0, b0, hL, hL0]
      omega
    · by_cases b0 : s.gen.split.1.2 = 0
      · have hL : 0 ∉ live := b0 ▸ g2
        have hL0 : 0 ∉ live0 := fun hh => hL (h.sub hh)
        have a0' : 0 < s.gen.split.1.1 := Nat.pos_of_ne_zero a0
        simp [a0', b0, hL, hL0]
        omega
      · have a0' : 0 < s.gen.split.1.1 := Nat.pos_of_ne_zero a0
        have b0' : 0 < s.gen.split.1.2 := Nat.pos_of_ne_zero b0
        have a1 : (0 = s.gen.split.1.1) = False := by simp; omega
        have b1 : (0 = s.gen.split.1.2) = False := by simp; omega
        rw [if_pos a0', if_pos b0']
        simp only [a1, b1, false_or]
        omega
  · rw [hcard, List.length_cons]; exact hq
  · intro q hq
    rcases List.mem_cons.1 hq with rfl | hq
    · exact hpop
    · exact h.pop q hq
  · obtain ⟨_, _, _, _, _, _, _, hg⟩ := gen_split h.start.big h.wf.nodup h.wf.disj h.wf.all h.wf.maxLt hM
    show s.gen.split.2.maxId + 1 ≤ _
    rw [hcard]
    have := h.hi
    omega
  · intro f hf
    rcases h.cause f hf with h1 | h1 | h1
    · exact Or.inl h1
    · exact Or.inr (Or.inl h1)
    · right; right
      intro hd
      have := h1 hd
      rw [List.length_cons]
      omega

/-- Below the cap there is room for two more splits. -/
theorem Mid.room (h : Mid m c K M t g0 d0 F0 ids live0 l dn nk orph live s) (hg : m = .g → t + 7 ≤ 3 * K)
    (hcap : s.ncl ≤ K) :
    live.card + 4 ≤ M ∧ live.card + 4 ≤ ids.length + (nk.length + 2) + m.bound K M := by
  have h1 := h.start.M_eq
  have h2 := h.start.even
  have h3 := h.start.two
  have h4 := h.start.ne
  have h5 := h.start.sum
  have h6 := h.start.zero
  have h7 := h.card
  have h8 := h.ncl
  have hnk : 0 ∈ live → 0 ∉ live0 → 1 ≤ nk.length := by
    intro a b
    by_contra hc
    have : live.card ≤ live0.card := by omega
    have := Finset.eq_of_subset_of_card_le h.sub this
    exact b (this ▸ a)
  unfold Mode.bound
  by_cases hm : m = .g
  · have hg := hg hm
    rw [if_pos hm] at h6 ⊢
    split at h8 <;> omega
  rw [if_neg hm] at h6 ⊢
  by_cases hz : 0 ∈ live ∧ 0 ∉ live0
  · have := hnk hz.1 hz.2
    rw [if_pos hz] at h8
    rw [if_neg hz.2] at h6
    have : (0 : Nat) ∉ ids := fun hh => hz.2 (h.start.sub 0 hh)
    rw [if_neg this] at h6
    omega
  · rw [if_neg hz] at h8
    have h9 : 3 * d0 ≤ t + 1 := by split at h6 <;> [omega; (split at h6 <;> omega)]
    omega

/-! ### One partition of `inner_init` -/

theorem retire_ok {i : Nat} {v : Row R n}
    (h : Mid m c K M t g0 d0 F0 ids live0 l dn nk (i :: orph) live s) (hK : c.halfK * 2 = K) :
    (retire c i v s = .ok (true, { s with
      active := s.active.set i false, final := Function.update s.final i (some v) }) ∧
      (size c.nrow s.assign i < c.minSize ∨ K < s.ncl)) ∨
    (retire c i v s = .ok (false, s) ∧ c.minSize ≤ size c.nrow s.assign i ∧ s.ncl ≤ K) := by
  have hiL : i ∈ live := (h.wf.liveIff i).2 (Or.inr (Or.inr (Or.inr (by simp))))
  have hiM := h.wf.live_lt hiL
  unfold retire St.getCount
  rw [h.counts i hiM]
  simp only
  by_cases hcond : (size c.nrow s.assign i : Int) < c.minSize ∨ c.atCap s = true
  · left
    rw [if_pos hcond]
    unfold St.deactivate
    rw [active_set h.wf hiM]
    refine ⟨rfl, ?_⟩
    unfold Cfg.atCap at hcond
    simp only [decide_eq_true_eq] at hcond
    omega
  · right
    rw [if_neg hcond]
    rw [not_or] at hcond
    unfold Cfg.atCap at hcond
    simp only [decide_eq_true_eq] at hcond
    exact ⟨rfl, by omega, by omega⟩

theorem flags_ok {i : Nat} (hw : Wf M dn orph live s) (hi : i < M) :
    ∃ b, VMap.flagsGet s.active i = .ok b := by
  unfold VMap.flagsGet
  have : i < s.active.length := by rw [hw.lenA]; exact hi
  rw [List.getElem?_eq_getElem this]
  exact ⟨_, rfl⟩

theorem flags_orph {i : Nat} (hw : Wf M dn orph live s) (hi : i ∈ orph) :
    VMap.flagsGet s.active i = .ok true := by
  unfold VMap.flagsGet
  rw [(hw.orphOk i hi).1]

/-- Treating one partition. -/
theorem innerStep_ok {p : Nat} (hK : c.halfK * 2 = K) (hmin : 2 ≤ c.minSize)
    (hg : m = .g → t + 7 ≤ 3 * K)
    (h : Mid m c K M t g0 d0 F0 ids live0 (p :: l) dn nk [] live s) :
    ∃ s', innerStep c s p = .ok s' ∧ s'.assign = s.assign ∧ ∃ nk' live',
      Mid m c K M t g0 d0 F0 ids live0 l (p :: dn) nk' [] live' s' := by
  obtain ⟨nd, hp, hold⟩ := h.old p (by simp)
  have hk := h.kill hp
  have hne : nd.zero ≠ nd.one := h.wf.sidesNe p nd ⟨hp, h.ldn p (by simp)⟩
  have hpM : p < M := h.wf.live_lt (h.wf.key_live hp)
  have hp0 : size c.nrow s.assign p = 0 := h.empty p ((h.split p).2 (Or.inl (by simp)))
  have hz : nd.cl.means 0 = meanOf c.nrow c.data s.assign nd.zero := (hold 0).2
  have ho : nd.cl.means 1 = meanOf c.nrow c.data s.assign nd.one := (hold 1).2
  have hzM : nd.zero < M := h.wf.live_lt (h.sub (hold 0).1)
  have hoM : nd.one < M := h.wf.live_lt (h.sub (hold 1).1)
  have hcnt : ∀ s2 : St R n, s2.counts = s.counts → s2.getCount p = .ok 0 := by
    intro s2 e
    unfold St.getCount
    rw [e, h.counts p hpM, hp0]
    rfl
  have hno : ∀ (A B : Option Nat) (s2 : St R n), A = none → spawnOne c nd.zero A B s2 = .ok s2 ∧
      spawnOne c nd.one A B s2 = .ok s2 := by
    rintro A B s2 rfl
    exact ⟨rfl, rfl⟩
  unfold innerStep
  simp only [hp]
  rcases retire_ok (v := nd.cl.means 0) hk hK with ⟨e1, q1⟩ | ⟨e1, hs1, hc1⟩
  · -- the left side is retired
    rw [e1]
    simp only
    have h1 := hk.finish (v := nd.cl.means 0) (by simpa using hne) hz q1
    set s1 : St R n := { s with
      active := s.active.set nd.zero false
      final := Function.update s.final nd.zero (some (nd.cl.means 0)) } with es1
    obtain ⟨b, hb⟩ := flags_ok (i := nd.zero) h1.wf hzM
    rcases retire_ok (v := nd.cl.means 1) h1 hK with ⟨e2, q2⟩ | ⟨e2, hs2, hc2⟩
    · rw [e2]
      simp only
      have h2 := h1.finish (v := nd.cl.means 1) (by simp) ho q2
      set s2 : St R n := { s1 with
        active := s1.active.set nd.one false
        final := Function.update s1.final nd.one (some (nd.cl.means 1)) } with es2
      rw [hcnt s2 rfl]
      simp only [ne_eq, not_true_eq_false, if_false]
      obtain ⟨b0, hb0⟩ := flags_ok (i := nd.zero) h2.wf hzM
      obtain ⟨b1, hb1⟩ := flags_ok (i := nd.one) h2.wf hoM
      rw [hb0, hb1]
      simp only
      unfold Hclust.spawn
      have l1 := scan_left_done s2.assign nd.zero nd.one b0 b1 (List.range c.nrow)
        { l0c := true, l1c := true, r0c := true, r1c := true } rfl rfl
      have r1 := scan_right_done s2.assign nd.zero nd.one b0 b1 (List.range c.nrow)
        { l0c := true, l1c := true, r0c := true, r1c := true } rfl rfl
      rw [(hno _ _ s2 l1.1).1]
      simp only
      rw [(hno _ _ s2 r1.1).2]
      exact ⟨s2, rfl, rfl, nk, live, h2⟩
    · rw [e2]
      simp only
      rw [hcnt s1 rfl]
      simp only [ne_eq, not_true_eq_false, if_false]
      rw [hb, flags_orph h1.wf (by simp)]
      simp only
      unfold Hclust.spawn
      have l1 := scan_left_done s1.assign nd.zero nd.one b true (List.range c.nrow)
        { l0c := true, l1c := true, r0c := false, r1c := false } rfl rfl
      have r1 := scan_right_finds s1.assign nd.zero nd.one hne b (List.range c.nrow)
        { l0c := true, l1c := true, r0c := false, r1c := false } rfl (by simp) (by
          rw [filter_range_size]; simp; omega)
      rw [(hno _ _ s1 l1.1).1]
      simp only
      obtain ⟨x, hx⟩ := Option.isSome_iff_exists.1 r1.1
      obtain ⟨y, hy⟩ := Option.isSome_iff_exists.1 r1.2
      have hxm := (scan_mem (fun v => v < c.nrow) s1.assign nd.zero nd.one b true (List.range c.nrow) (by simp)
        { l0c := true, l1c := true, r0c := false, r1c := false } (by simp) (by simp) (by simp) (by simp))
      have hxl := hxm.2.2.1 x hx
      have hyl := hxm.2.2.2 y hy
      rw [hx, hy]
      have := h1.room hg hc2
      obtain ⟨e3, live', _, h3⟩ := h1.spawn (by simp) x y hxl hyl (by omega) (by omega) (by omega)
      rw [e3]
      exact ⟨_, rfl, rfl, _, live', h3⟩
  · rw [e1]
    simp only
    have hk' : Mid m c K M t g0 d0 F0 ids live0 l (p :: dn) nk [nd.one, nd.zero] live s :=
      hk.perm (by intro i; simp [or_comm])
    rcases retire_ok (v := nd.cl.means 1) hk' hK with ⟨e2, q2⟩ | ⟨e2, hs2, hc2⟩
    · rw [e2]
      simp only
      have h2 := hk'.finish (v := nd.cl.means 1) (by simpa using hne.symm) ho q2
      set s2 : St R n := { s with
        active := s.active.set nd.one false
        final := Function.update s.final nd.one (some (nd.cl.means 1)) } with es2
      rw [hcnt s2 rfl]
      simp only [ne_eq, not_true_eq_false, if_false]
      obtain ⟨b1, hb1⟩ := flags_ok (i := nd.one) h2.wf hoM
      rw [hb1, flags_orph h2.wf (by simp)]
      simp only
      unfold Hclust.spawn
      have l1 := scan_left_finds s2.assign nd.zero nd.one b1 (List.range c.nrow)
        { l0c := false, l1c := false, r0c := true, r1c := true } rfl (by simp) (by
          rw [filter_range_size]; simp; show 2 ≤ size c.nrow s.assign nd.zero; omega)
      have r1 := scan_right_done s2.assign nd.zero nd.one true b1 (List.range c.nrow)
        { l0c := false, l1c := false, r0c := true, r1c := true } rfl rfl
      obtain ⟨x, hx⟩ := Option.isSome_iff_exists.1 l1.1
      obtain ⟨y, hy⟩ := Option.isSome_iff_exists.1 l1.2
      have hxm := (scan_mem (fun v => v < c.nrow) s2.assign nd.zero nd.one true b1 (List.range c.nrow) (by simp)
        { l0c := false, l1c := false, r0c := true, r1c := true } (by simp) (by simp) (by simp) (by simp))
      have hxl := hxm.1 x hx
      have hyl := hxm.2.1 y hy
      rw [hx, hy]
      have := h2.room hg hc1
      obtain ⟨e3, live', _, h3⟩ := h2.spawn (by simp) x y hxl hyl (by show 0 < size c.nrow s.assign nd.zero; omega) (by omega) (by omega)
      rw [e3]
      simp only
      rw [(hno _ _ _ r1.1).2]
      exact ⟨_, rfl, rfl, _, live', h3⟩
    · rw [e2]
      simp only
      rw [hcnt s rfl]
      simp only [ne_eq, not_true_eq_false, if_false]
      rw [flags_orph hk.wf (i := nd.zero) (by simp), flags_orph hk.wf (i := nd.one) (by simp)]
      simp only
      unfold Hclust.spawn
      have l1 := scan_left_finds s.assign nd.zero nd.one true (List.range c.nrow)
        { l0c := false, l1c := false, r0c := false, r1c := false } rfl (by simp) (by
          rw [filter_range_size]; simp; omega)
      have r1 := scan_right_finds s.assign nd.zero nd.one hne true (List.range c.nrow)
        { l0c := false, l1c := false, r0c := false, r1c := false } rfl (by simp) (by
          rw [filter_range_size]; simp; omega)
      obtain ⟨x, hx⟩ := Option.isSome_iff_exists.1 l1.1
      obtain ⟨y, hy⟩ := Option.isSome_iff_exists.1 l1.2
      obtain ⟨x', hx'⟩ := Option.isSome_iff_exists.1 r1.1
      obtain ⟨y', hy'⟩ := Option.isSome_iff_exists.1 r1.2
      have hxm := (scan_mem (fun v => v < c.nrow) s.assign nd.zero nd.one true true (List.range c.nrow) (by simp)
        { l0c := false, l1c := false, r0c := false, r1c := false } (by simp) (by simp) (by simp) (by simp))
      have hxl := hxm.1 x hx
      have hyl := hxm.2.1 y hy
      have hxl' := hxm.2.2.1 x' hx'
      have hyl' := hxm.2.2.2 y' hy'
      rw [hx, hy, hx', hy']
      have := hk.room hg hc1
      obtain ⟨e3, live', hcd, h3⟩ := hk.spawn (by simpa using hne) x y hxl hyl (by omega) (by omega) (by omega)
      rw [e3]
      simp only
      obtain ⟨e4, live'', _, h4⟩ := h3.spawn (by simp) x' y' hxl' hyl' (by
        show 0 < size c.nrow s.assign nd.one; omega) (by omega) (by
        rw [List.length_cons]; omega)
      rw [e4]
      exact ⟨_, rfl, rfl, _, live'', h4⟩

end

end Knor.Hclust
