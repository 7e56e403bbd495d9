import Verif.Lemmas.HclustEM

/-! One iteration of hierarchical clustering keeps the invariant and settles all rows. -/

namespace Knor.Hclust

open Knor Knor.Par Knor.Spec

variable {R D : Type _} {n : Nat}

theorem finalize_two [Field R] (cl : Clusters R 2 n) :
    (cl.finalize 0).finalize 1 = cl.finalizeAll := by
  unfold Clusters.finalizeAll
  rw [show List.finRange 2 = [0, 1] from rfl]
  rfl

/-- The number of rows of partition `p` whose cluster differs in the two states. -/
def changedRows (N : Nat) (s s' : St R n) (p : Nat) : Nat :=
  ((Finset.range N).filter fun r => s.part r = p ∧ s'.assign r ≠ s.assign r).card

/-- What an iteration does, as far as its users need it. -/
structure IterOk [Field R] [LE R] [LE D] (c : Cfg R D n) (M : Nat) (s s' : St R n) : Prop where
  shape : ∀ p, shape s' p = shape s p
  active : s'.active = s.active
  hsize : s'.hsize = s.hsize
  gen : s'.gen = s.gen
  final : s'.final = s.final
  part : s'.part = s.part
  ncl : s'.ncl = s.ncl
  lenC : s'.counts.length = s.counts.length
  settled : Settled c.nrow M c.data s'
  /-- Clusters that are neither partitions nor sides keep their rows. -/
  others : ∀ i, s.hc i = none → ¬ Child [] s i → ∀ r, r < c.nrow → (s'.assign r = i ↔ s.assign r = i)
  /-- Rows of final clusters and of converged partitions stay, the others go to the nearer side. -/
  stay : ∀ r, r < c.nrow → (s.final (s.assign r)).isSome → s'.assign r = s.assign r
  conv : ∀ r nd, r < c.nrow → s.final (s.assign r) = none → s.hc (s.part r) = some nd →
    nd.conv = true → s'.assign r = s.assign r
  move : ∀ r nd, r < c.nrow → s.final (s.assign r) = none → s.hc (s.part r) = some nd →
    nd.conv = false → ∃ i, s'.assign r = nd.side i ∧
      IsFirstNearest (fun i => c.dist (c.data r) (nd.cl.means i)) i
  /-- A partition converges when none of its rows, or at most the tolerated fraction, changed side. -/
  test : ∀ p nd nd', s.hc p = some nd → s'.hc p = some nd' → (nd'.conv = true ↔ nd.conv = true ∨
    changedRows c.nrow s s' p = 0 ∨ (changedRows c.nrow s s' p : R) /
      ((size c.nrow s'.assign nd.zero + size c.nrow s'.assign nd.one : Nat) : R) ≤ c.tol)

theorem setCount_ok {s : St R n} {i : Nat} {v : Int} (h : i < s.counts.length) :
    s.setCount i v = .ok { s with counts := s.counts.set i v } := by
  unfold St.setCount
  rw [if_pos h]

theorem mem_sides {nd : Node R n} {i : Nat} : (∃ j, nd.side j = i) ↔ i = nd.zero ∨ i = nd.one := by
  constructor
  · rintro ⟨j, rfl⟩
    have h01 : j = 0 ∨ j = 1 := by revert j; decide
    rcases h01 with rfl | rfl
    · exact Or.inl rfl
    · exact Or.inr rfl
  · rintro (rfl | rfl)
    · exact ⟨0, rfl⟩
    · exact ⟨1, rfl⟩

/-- `update_clusters` on merged sums that are right. -/
theorem nodeLoop [Field R] [LinearOrder R] {N M : Nat} {data : Nat → Row R n} {tol : R} {changed : Nat → Nat}
    {live : Finset Nat} {s : St R n} (hw : Wf M [] [] live s)
    (hrows : ∀ r, r < N → ((s.final (s.assign r)).isSome ∧ s.hc (s.part r) = none) ∨
      ∃ nd j, s.hc (s.part r) = some nd ∧ s.assign r = nd.side j)
    (hcnt : ∀ i, i < M → s.hc i = none → ¬ Child [] s i →
      s.counts[i]? = some (size N s.assign i : Int))
    (hnum : ∀ p nd j, s.hc p = some nd → nd.cl.num j = (size N s.assign (nd.side j) : Int))
    (hmean : ∀ p nd j, s.hc p = some nd →
      (if nd.conv then nd.cl.means j else nd.cl.finalizeAll.means j)
        = meanOf N data s.assign (nd.side j)) :
    ∃ s', forEach (nodeStep tol changed) s.keys s = .ok s' ∧
      (∀ p, shape s' p = shape s p) ∧ s'.active = s.active ∧ s'.hsize = s.hsize ∧ s'.gen = s.gen ∧
      s'.final = s.final ∧ s'.part = s.part ∧ s'.ncl = s.ncl ∧ s'.assign = s.assign ∧
      s'.counts.length = s.counts.length ∧ Settled N M data s' ∧
      ∀ p nd nd', s.hc p = some nd → s'.hc p = some nd' → nd'.conv
        = if nd.conv then true else nodeConv tol (changed p) (nd.cl.num 0 + nd.cl.num 1) := by
  have hkey0 : ∀ p nd, s.hc p = some nd → size N s.assign p = 0 := by
    intro p nd hp
    unfold size
    rw [Finset.card_eq_zero, Finset.filter_eq_empty_iff]
    intro r hr e
    rw [Finset.mem_range] at hr
    rcases hrows r hr with ⟨hf, _⟩ | ⟨nd', j, hq, e'⟩
    · rw [e] at hf
      have := hw.finNone p hf
      rw [hp] at this; cases this
    · exact hw.key_not_child hp ⟨_, nd', j, ⟨hq, by simp⟩, by rw [← e', e]⟩
  let P : List Nat → St R n → Prop := fun l st =>
    l.Nodup ∧ (∀ p ∈ l, p ∈ s.keys) ∧ (∀ p ∈ l, st.hc p = s.hc p) ∧
    (∀ p, shape st p = shape s p) ∧ st.active = s.active ∧ st.hsize = s.hsize ∧ st.gen = s.gen ∧
    st.final = s.final ∧ st.part = s.part ∧ st.ncl = s.ncl ∧ st.assign = s.assign ∧
    st.counts.length = s.counts.length ∧
    (∀ p nd j, p ∉ l → st.hc p = some nd →
      nd.cl.num j = (size N s.assign (nd.side j) : Int) ∧
        nd.cl.means j = meanOf N data s.assign (nd.side j)) ∧
    (∀ i, i < M → st.counts[i]? = some (size N s.assign i : Int) ∨ i ∈ l ∨
      ∃ p ∈ l, ∃ nd j, s.hc p = some nd ∧ nd.side j = i) ∧
    ∀ p nd nd', p ∉ l → s.hc p = some nd → st.hc p = some nd' → nd'.conv
        = if nd.conv then true else nodeConv tol (changed p) (nd.cl.num 0 + nd.cl.num 1)
  obtain ⟨s', e, hP⟩ := forEach_inv (f := nodeStep tol changed) (P := P) (by
    rintro p l st ⟨h1, h2, h3, h4, h5, h6, h7, h8, h9, h10, h11, h12, h13, h14, h15⟩
    rw [List.nodup_cons] at h1
    obtain ⟨hpl, nd, hp⟩ := mem_keys.1 (h2 p (by simp))
    have hst : st.hc p = some nd := (h3 p (by simp)).trans hp
    have hpM : p < M := hw.live_lt (hw.key_live hp)
    have hzM : nd.zero < M := hw.live_lt (hw.side_live (p := p) ⟨hp, by simp⟩ 0)
    have hoM : nd.one < M := hw.live_lt (hw.side_live (p := p) ⟨hp, by simp⟩ 1)
    have hne := hw.sidesNe p nd ⟨hp, by simp⟩
    have hlen : st.counts.length = M := by rw [h12, hw.lenC]
    let cts := ((st.counts.set p 0).set nd.zero (nd.cl.num 0)).set nd.one (nd.cl.num 1)
    have hcts : ∀ i, i < M → cts[i]? = some (size N s.assign i : Int) ∨ i ∈ l ∨
        ∃ p ∈ l, ∃ nd j, s.hc p = some nd ∧ nd.side j = i := by
      intro i hi
      show (((st.counts.set p 0).set nd.zero (nd.cl.num 0)).set nd.one (nd.cl.num 1))[i]? = _ ∨ _
      by_cases hio : i = nd.one
      · subst hio
        left
        rw [List.getElem?_set_self (by simp [hlen, hoM]), hnum p nd 1 hp, side_one]
      rw [List.getElem?_set_ne fun e => hio e.symm]
      by_cases hiz : i = nd.zero
      · subst hiz
        left
        rw [List.getElem?_set_self (by simp [hlen, hzM]), hnum p nd 0 hp, side_zero]
      rw [List.getElem?_set_ne fun e => hiz e.symm]
      by_cases hip : i = p
      · subst hip
        left
        rw [List.getElem?_set_self (by rw [hlen]; exact hpM), hkey0 i nd hp]
        rfl
      rw [List.getElem?_set_ne fun e => hip e.symm]
      rcases h14 i hi with h | h | ⟨q, hq, nd', j, hnd', e⟩
      · exact Or.inl h
      · rcases List.mem_cons.1 h with h | h
        · exact absurd h hip
        · exact Or.inr (Or.inl h)
      · rcases List.mem_cons.1 hq with rfl | hq
        · rw [hp] at hnd'
          cases hnd'
          rcases mem_sides.1 ⟨j, e⟩ with h | h
          · exact absurd h hiz
          · exact absurd h hio
        · exact Or.inr (Or.inr ⟨q, hq, nd', j, hnd', e⟩)
    have hstep : nodeStep tol changed st p = .ok (if nd.conv then { st with counts := cts }
        else St.putNode { st with counts := cts } p { nd with
            cl := (nd.cl.finalize 0).finalize 1
            conv := nodeConv tol (changed p) (nd.cl.num 0 + nd.cl.num 1) }) := by
      unfold nodeStep
      rw [hst]
      simp only
      rw [setCount_ok (by rw [hlen]; exact hpM)]
      simp only
      rw [setCount_ok (by simp [hlen, hzM])]
      simp only
      rw [setCount_ok (by simp [hlen, hoM])]
      simp only
      split <;> rfl
    refine ⟨_, hstep, ?_⟩
    cases hcv : nd.conv with
    | true =>
      simp only [if_true]
      refine ⟨h1.2, fun q hq => h2 q (List.mem_cons_of_mem _ hq),
        fun q hq => h3 q (List.mem_cons_of_mem _ hq), h4, h5, h6, h7, h8, h9, h10, h11, ?_, ?_, hcts, ?_⟩
      · show cts.length = _
        simp [cts, h12]
      · intro q nd' j hq hq'
        by_cases hqp : q = p
        · subst hqp
          have : nd' = nd := Option.some.inj (hq'.symm.trans hst)
          subst this
          refine ⟨hnum q nd' j hp, ?_⟩
          have := hmean q nd' j hp
          rw [hcv] at this
          simpa using this
        · exact h13 q nd' j (by simp [hqp, hq]) hq'
      · intro q nd1 nd2 hq hq1 hq2
        by_cases hqp : q = p
        · subst hqp
          obtain rfl : nd1 = nd := Option.some.inj (hq1.symm.trans hp)
          obtain rfl : nd2 = nd1 := Option.some.inj (hq2.symm.trans hst)
          rw [hcv]; rfl
        · exact h15 q nd1 nd2 (by simp [hqp, hq]) hq1 hq2
    | false =>
      simp only [Bool.false_eq_true, if_false]
      unfold St.putNode
      refine ⟨h1.2, fun q hq => h2 q (List.mem_cons_of_mem _ hq), ?_, ?_, h5, ?_, h7, h8, h9, h10, h11,
        ?_, ?_, hcts, ?_⟩
      · intro q hq
        show Function.update st.hc p _ q = _
        rw [Function.update_of_ne (by rintro rfl; exact h1.1 hq)]
        exact h3 q (List.mem_cons_of_mem _ hq)
      · intro q
        unfold shape
        show (Function.update st.hc p _ q).map _ = _
        by_cases hqp : q = p
        · subst hqp
          rw [Function.update_self, hp]
          rfl
        · rw [Function.update_of_ne hqp]
          exact h4 q
      · show max st.hsize (p + 1) = _
        rw [h6]
        omega
      · show cts.length = _
        simp [cts, h12]
      · intro q nd' j hq hq'
        change Function.update st.hc p _ q = some nd' at hq'
        by_cases hqp : q = p
        · subst hqp
          rw [Function.update_self] at hq'
          obtain rfl := Option.some.inj hq'
          have hsd : ∀ (cl : Clusters R 2 n) (b : Bool) j,
              Node.side { nd with cl := cl, conv := b } j = nd.side j := fun _ _ _ => rfl
          rw [hsd]
          have := hmean q nd j hp
          rw [hcv] at this
          simp only [Bool.false_eq_true, if_false] at this
          refine ⟨?_, ?_⟩
          · show ((nd.cl.finalize 0).finalize 1).num j = _
            rw [finalize_two, Clusters.finalizeAll_num]
            exact hnum q nd j hp
          · show ((nd.cl.finalize 0).finalize 1).means j = _
            rw [finalize_two, this]
        · rw [Function.update_of_ne hqp] at hq'
          exact h13 q nd' j (by simp [hqp, hq]) hq'
      · intro q nd1 nd2 hq hq1 hq2
        change Function.update st.hc p _ q = some nd2 at hq2
        by_cases hqp : q = p
        · subst hqp
          rw [Function.update_self] at hq2
          obtain rfl := Option.some.inj hq2
          obtain rfl : nd1 = nd := Option.some.inj (hq1.symm.trans hp)
          rw [hcv]; rfl
        · rw [Function.update_of_ne hqp] at hq2
          exact h15 q nd1 nd2 (by simp [hqp, hq]) hq1 hq2) s.keys s
    ⟨nodup_keys s, fun _ h => h, fun _ _ => rfl, fun _ => rfl, rfl, rfl, rfl, rfl, rfl, rfl, rfl, rfl,
      (by
        intro p nd j hp hnd
        exact absurd (mem_keys.2 ⟨hw.keyLt p nd hnd, nd, hnd⟩) hp),
      (by
        intro i hi
        by_cases hk : s.hc i = none
        · by_cases hch : Child [] s i
          · obtain ⟨p, nd, j, ⟨hp, _⟩, e⟩ := hch
            exact Or.inr (Or.inr ⟨p, mem_keys.2 ⟨hw.keyLt p nd hp, nd, hp⟩, nd, j, hp, e⟩)
          · exact Or.inl (hcnt i hi hk hch)
        · obtain ⟨nd, hnd⟩ := Option.ne_none_iff_exists'.1 hk
          exact Or.inr (Or.inl (mem_keys.2 ⟨hw.keyLt i nd hnd, nd, hnd⟩))),
      (by
        intro p nd nd' hp hnd _
        exact absurd (mem_keys.2 ⟨hw.keyLt p nd hnd, nd, hnd⟩) hp)⟩
  obtain ⟨_, _, _, h4, h5, h6, h7, h8, h9, h10, h11, h12, h13, h14, h15⟩ := hP
  refine ⟨s', e, h4, h5, h6, h7, h8, h9, h10, h11, h12, ⟨?_, ?_, ?_⟩,
    fun p nd nd' => h15 p nd nd' (by simp)⟩
  · intro r hr
    rw [h8, h9, h11]
    rcases hrows r hr with h | ⟨nd, j, hp, e⟩
    · exact Or.inl ⟨h.1, shape_none h4 h.2⟩
    · right
      obtain ⟨nd', h1, h2⟩ := shape_open (fun p => (h4 p).symm) hp
      exact ⟨nd', j, h1, by rw [e, h2]⟩
  · intro i hi
    rw [h11]
    rcases h14 i hi with h | h | ⟨p, hp, _⟩
    · exact h
    · cases h
    · cases hp
  · intro p nd j hp
    rw [h11]
    exact h13 p nd j (by simp) hp

/-- One iteration from a ready state succeeds, whatever the schedule, and settles the state. -/
theorem iteration_ok [Field R] [LinearOrder R] [LinearOrder D] {c : Cfg R D n} {s : St R n} {M : Nat}
    {live : Finset Nat} (hw : Wf M [] [] live s) (hr : Ready c M s)
    (hN : 0 < c.nrow) (hT : 0 < c.reqThreads) (hlt : c.nrow < 4294967296) {sched : List Nat}
    (hc : Complete (Partition.effThreads c.reqThreads c.nrow)
      (Kmeans.threadRows c.nrow c.reqThreads) sched) :
    ∃ s', iteration c sched s = .ok s' ∧ IterOk c M s s' := by
  have hsp := Kmeans.split_threadRows hN hT hlt
  obtain ⟨p, e, hmem, _, hacc⟩ := Par.run_det (f := hemRow c s) (g := newId c s) (h := bump c s)
    (fun r m a => (hemRow_det c s r m a).trans (by cases newId c s r m <;> rfl)) (s0 := { mem := s.assign, acc := fun _ => HAcc.init, todo := Kmeans.threadRows c.nrow c.reqThreads }) hsp hc (by
      intro r hrN
      unfold newId
      rcases choose_ok hw hr hrN with ⟨_, h⟩ | ⟨nd, _, _, ⟨_, h⟩ | ⟨_, i, h⟩⟩ <;>
        rw [h] <;> exact ⟨_, rfl⟩)
  simp only at hmem hacc
  have hstay : ∀ r, r < c.nrow → (s.final (s.assign r)).isSome → p.mem r = s.assign r := by
    intro r hrN hf
    have hm := hmem r hrN
    rcases choose_ok hw hr hrN with ⟨_, h⟩ | ⟨nd, h0, _⟩
    · unfold newId at hm
      rw [h] at hm
      exact (Except.ok.inj hm).symm
    · rw [h0] at hf; cases hf
  have hconv : ∀ r nd, r < c.nrow → s.final (s.assign r) = none → s.hc (s.part r) = some nd →
      nd.conv = true → p.mem r = s.assign r ∧ choose c s r (s.assign r) = .ok none := by
    intro r nd hrN hf hnd hcv
    have hm := hmem r hrN
    rcases choose_ok hw hr hrN with ⟨h0, _⟩ | ⟨nd', _, h1, ⟨_, h⟩ | ⟨h2, _⟩⟩
    · rw [hf] at h0; cases h0
    · unfold newId at hm
      rw [h] at hm
      exact ⟨(Except.ok.inj hm).symm, h⟩
    · rw [hnd] at h1; cases h1; rw [hcv] at h2; cases h2
  have hmove : ∀ r nd, r < c.nrow → s.final (s.assign r) = none → s.hc (s.part r) = some nd →
      nd.conv = false → ∃ i, p.mem r = nd.side i ∧
        choose c s r (s.assign r) = .ok (some (nd, i)) := by
    intro r nd hrN hf hnd hcv
    have hm := hmem r hrN
    rcases choose_ok hw hr hrN with ⟨h0, _⟩ | ⟨nd', _, h1, ⟨h2, _⟩ | ⟨_, i, h⟩⟩
    · rw [hf] at h0; cases h0
    · rw [hnd] at h1; cases h1; rw [hcv] at h2; cases h2
    · rw [hnd] at h1; cases h1
      unfold newId at hm
      rw [h] at hm
      exact ⟨i, (Except.ok.inj hm).symm, h⟩
  have hnear : ∀ r nd i, s.hc (s.part r) = some nd →
      choose c s r (s.assign r) = .ok (some (nd, i)) →
      IsFirstNearest (fun i => c.dist (c.data r) (nd.cl.means i)) i := by
    intro r nd i hnd hch
    unfold choose at hch
    split at hch
    · cases hch
    · cases hch
    · rw [hnd] at hch
      simp only at hch
      split at hch
      · cases hch
      · split at hch
        · cases hch
        · rename_i i' hi'
          cases hch
          exact Kmeans.emScan_some hi'
  have hnofin : ∀ r nd, s.hc (s.part r) = some nd → ∀ v, s.final (s.assign r) = some v →
      (s.assign r = s.part r ∨ ∃ j, s.assign r = nd.side j) → False := by
    intro r nd hnd v hf hloc
    have hfs : (s.final (s.assign r)).isSome := by rw [hf]; rfl
    rcases hloc with e' | ⟨j, e'⟩
    · have := hw.finNone _ hfs
      rw [e', hnd] at this; cases this
    · exact hw.finChild _ hfs ⟨_, nd, j, ⟨hnd, by simp⟩, e'.symm⟩
  -- rows after the E-step
  have hrows : ∀ r, r < c.nrow → ((s.final (p.mem r)).isSome ∧ s.hc (s.part r) = none) ∨
      ∃ nd j, s.hc (s.part r) = some nd ∧ p.mem r = nd.side j := by
    intro r hrN
    rcases hr.rows r hrN with h | ⟨nd, hnd, hloc⟩
    · exact Or.inl (by rw [hstay r hrN h.1]; exact h)
    · cases hf : s.final (s.assign r) with
      | some v => exact (hnofin r nd hnd v hf hloc).elim
      | none =>
        right
        cases hcv : nd.conv with
        | true =>
          obtain ⟨j, hj⟩ := hr.convRows _ nd hnd hcv r hrN rfl
          exact ⟨nd, j, hnd, by rw [(hconv r nd hrN hf hnd hcv).1, hj]⟩
        | false =>
          obtain ⟨i, hi, _⟩ := hmove r nd hrN hf hnd hcv
          exact ⟨nd, i, hnd, hi⟩
  -- sizes of clusters that no partition touches are unchanged
  have hsize : ∀ i, (∀ r, r < c.nrow → (p.mem r = i ↔ s.assign r = i)) →
      size c.nrow p.mem i = size c.nrow s.assign i := by
    intro i h
    unfold size
    congr 1
    apply Finset.filter_congr
    intro r hr'
    exact h r (Finset.mem_range.1 hr')
  have hmeanEq : ∀ i, (∀ r, r < c.nrow → (p.mem r = i ↔ s.assign r = i)) →
      meanOf c.nrow c.data p.mem i = meanOf c.nrow c.data s.assign i := by
    intro i h
    unfold meanOf
    rw [hsize i h]
    have : (Finset.range c.nrow).filter (fun r => p.mem r = i)
        = (Finset.range c.nrow).filter (fun r => s.assign r = i) := by
      apply Finset.filter_congr
      intro r hr'
      exact h r (Finset.mem_range.1 hr')
    rw [this]
  have huntouched : ∀ i, s.hc i = none → ¬ Child [] s i →
      ∀ r, r < c.nrow → (p.mem r = i ↔ s.assign r = i) := by
    intro i hk hch r hrN
    constructor
    · intro e'
      rcases hrows r hrN with h | ⟨nd, j, hnd, e2⟩
      · rcases hr.rows r hrN with h' | ⟨nd, hnd, _⟩
        · rw [← hstay r hrN h'.1]; exact e'
        · cases hf : s.final (s.assign r) with
          | some v => rw [← hstay r hrN (by rw [hf]; rfl)]; exact e'
          | none =>
            cases hcv : nd.conv with
            | true => rw [← (hconv r nd hrN hf hnd hcv).1]; exact e'
            | false =>
              obtain ⟨i', hi', _⟩ := hmove r nd hrN hf hnd hcv
              exact absurd ⟨_, nd, i', ⟨hnd, by simp⟩, by rw [← hi', e']⟩ hch
      · exact absurd ⟨_, nd, j, ⟨hnd, by simp⟩, by rw [← e2, e']⟩ hch
    · intro e'
      rcases hr.rows r hrN with h' | ⟨nd, hnd, e2 | ⟨j, e2⟩⟩
      · rw [hstay r hrN h'.1]; exact e'
      · rw [← e', e2, hnd] at hk; cases hk
      · exact absurd ⟨_, nd, j, ⟨hnd, by simp⟩, by rw [← e2, e']⟩ hch
  have hconvSide : ∀ q nd j, s.hc q = some nd → nd.conv = true →
      ∀ r, r < c.nrow → (p.mem r = nd.side j ↔ s.assign r = nd.side j) := by
    intro q nd j hq hcv r hrN
    have key : s.part r = q ∨ (p.mem r ≠ nd.side j ∧ s.assign r ≠ nd.side j) := by
      by_cases hpq : s.part r = q
      · exact Or.inl hpq
      right
      have hnf : ∀ x, (s.final x).isSome → x ≠ nd.side j := by
        intro x hx e'
        exact hw.finChild x hx ⟨q, nd, j, ⟨hq, by simp⟩, e'.symm⟩
      have hns : ∀ nd' j', s.hc (s.part r) = some nd' → nd'.side j' ≠ nd.side j := by
        intro nd' j' hnd' e'
        exact hpq (hw.uniq _ _ nd' nd j' j ⟨hnd', by simp⟩ ⟨hq, by simp⟩ e')
      refine ⟨?_, ?_⟩
      · rcases hrows r hrN with h | ⟨nd', j', h1, h2⟩
        · exact hnf _ h.1
        · rw [h2]; exact hns nd' j' h1
      · rcases hr.rows r hrN with h | ⟨nd', h1, h2 | ⟨j', h2⟩⟩
        · exact hnf _ h.1
        · intro e'
          rw [h2] at e'
          have := hw.sideNone q nd j ⟨hq, by simp⟩
          rw [← e', h1] at this; cases this
        · rw [h2]; exact hns nd' j' h1
    rcases key with hpq | ⟨h1, h2⟩
    · subst hpq
      cases hf : s.final (s.assign r) with
      | some v => rw [hstay r hrN (by rw [hf]; rfl)]
      | none => rw [(hconv r nd hrN hf hq hcv).1]
    · exact ⟨fun h => absurd h h1, fun h => absurd h h2⟩
  -- the state before the last loop
  let T := Partition.effThreads c.reqThreads c.nrow
  let sE : St R n := { s with assign := p.mem }
  let sM := mergeNodes T p.acc sE
  have hsMhc : ∀ q, sM.hc q = match s.hc q with
      | none => none
      | some nd => if nd.conv then some nd else some { nd with
          cl := (List.range T).foldl (fun x t => Clusters.peq x ((p.acc t).loc q))
            Clusters.empty } := fun _ => rfl
  have hshape : ∀ q, shape sM q = shape s q := by
    intro q
    unfold shape
    rw [hsMhc]
    cases s.hc q with
    | none => rfl
    | some nd =>
      simp only
      split <;> rfl
  have hwM : Wf M [] [] live sM := hw.of_shape hshape rfl rfl rfl rfl rfl
  have hgetM : ∀ q nd', sM.hc q = some nd' → ∃ nd, s.hc q = some nd ∧ (∀ j, nd'.side j = nd.side j) ∧
      nd'.conv = nd.conv ∧ ((nd.conv = true ∧ nd' = nd) ∨ (nd.conv = false ∧
        nd'.cl = (List.range T).foldl (fun x t => Clusters.peq x ((p.acc t).loc q)) Clusters.empty)) := by
    intro q nd' hq
    rw [hsMhc] at hq
    cases hs : s.hc q with
    | none => rw [hs] at hq; cases hq
    | some nd =>
      rw [hs] at hq
      simp only at hq
      cases hcv : nd.conv with
      | true =>
        rw [hcv] at hq
        simp only [if_true, Option.some.injEq] at hq
        exact ⟨nd, rfl, fun j => by rw [hq], by rw [← hq, hcv], Or.inl ⟨hcv, hq.symm⟩⟩
      | false =>
        rw [hcv] at hq
        simp only [Bool.false_eq_true, if_false, Option.some.injEq] at hq
        subst hq
        exact ⟨nd, rfl, fun j => rfl, hcv.symm, Or.inr ⟨hcv, rfl⟩⟩
  have hselEq : ∀ q nd, s.hc q = some nd → nd.conv = false → ∀ r, r < c.nrow → ∀ j,
      (sel c s q r = some j ↔ p.mem r = nd.side j) := by
    intro q nd hq hcv r hrN j
    unfold sel
    by_cases hpq : s.part r = q
    · subst hpq
      rw [if_pos rfl]
      cases hf : s.final (s.assign r) with
      | some v =>
        have hfs : (s.final (s.assign r)).isSome := by rw [hf]; rfl
        have hc0 : choose c s r (s.assign r) = .ok none := by
          rcases choose_ok hw hr hrN with ⟨_, h⟩ | ⟨_, h0, _⟩
          · exact h
          · rw [hf] at h0; cases h0
        rw [hc0, hstay r hrN hfs]
        simp only [reduceCtorEq, false_iff]
        intro e'
        exact hw.finChild _ hfs ⟨_, nd, j, ⟨hq, by simp⟩, e'.symm⟩
      | none =>
        obtain ⟨i, hi, hch⟩ := hmove r nd hrN hf hq hcv
        rw [hch, hi]
        simp only [Option.some.injEq]
        constructor
        · rintro rfl; rfl
        · intro e'
          exact (hw.side_inj (p := s.part r) (q := s.part r) ⟨hq, by simp⟩ ⟨hq, by simp⟩ e').2.2
    · rw [if_neg hpq]
      simp only [reduceCtorEq, false_iff]
      intro e'
      rcases hrows r hrN with h | ⟨nd', j', h1, h2⟩
      · rw [e'] at h
        replace h := h.1
        exact hw.finChild _ h ⟨q, nd, j, ⟨hq, by simp⟩, rfl⟩
      · rw [h2] at e'
        exact hpq (hw.uniq _ _ nd' nd j' j ⟨h1, by simp⟩ ⟨hq, by simp⟩ e')
  have hmerged := fun q nd (hq : s.hc q = some nd) (hcv : nd.conv = false) =>
    merged_at hsp (a' := p.mem) (acc := p.acc) (c := c) (s := s)
      (fun t => hacc t) (p := q) (nd := nd) (hw.sidesNe q nd ⟨hq, by simp⟩)
      (hselEq q nd hq hcv)
  obtain ⟨s', eU, u1, u2, u3, u4, u5, u6, u7, u8, u9, u10, u11⟩ := nodeLoop (N := c.nrow) (data := c.data)
    (tol := c.tol) (changed := mergeChanged T p.acc) hwM
    (by
      intro r hrN
      rcases hrows r hrN with h | ⟨nd, j, h1, h2⟩
      · exact Or.inl ⟨h.1, shape_none hshape h.2⟩
      · right
        obtain ⟨nd', h3, h4⟩ := shape_open (fun q => (hshape q).symm) h1
        exact ⟨nd', j, h3, by rw [← h4] at *; exact h2⟩)
    (by
      intro i hi hk hch
      have hk' : s.hc i = none := shape_none (fun q => (hshape q).symm) hk
      have hch' : ¬ Child [] s i := fun h => hch (shape_child (fun q => (hshape q).symm) h)
      have : sM.counts[i]? = s.counts[i]? := rfl
      rw [this, hr.counts i hi hk' hch']
      show _ = some ((size c.nrow p.mem i : Nat) : Int)
      rw [hsize i (huntouched i hk' hch')])
    (by
      intro q nd' j hq
      obtain ⟨nd, hs, hside, _, ⟨hcv, rfl⟩ | ⟨hcv, hcl⟩⟩ := hgetM q nd' hq
      · show _ = ((size c.nrow p.mem (nd'.side j) : Nat) : Int)
        rw [hsize _ (hconvSide q nd' j hs hcv)]
        exact (hr.convNum q nd' j hs hcv).1
      · show _ = ((size c.nrow p.mem (nd'.side j) : Nat) : Int)
        rw [hcl, hside, ← count_sideOf (hw.sidesNe q nd ⟨hs, by simp⟩)]
        exact (hmerged q nd hs hcv).2.2.1 j)
    (by
      intro q nd' j hq
      obtain ⟨nd, hs, hside, hcv', ⟨hcv, rfl⟩ | ⟨hcv, hcl⟩⟩ := hgetM q nd' hq
      · rw [hcv]
        simp only [if_true]
        show _ = meanOf c.nrow c.data p.mem (nd'.side j)
        rw [hmeanEq _ (hconvSide q nd' j hs hcv)]
        exact (hr.convNum q nd' j hs hcv).2
      · rw [hcv', hcv]
        simp only [Bool.false_eq_true, if_false]
        show _ = meanOf c.nrow c.data p.mem (nd'.side j)
        obtain ⟨_, m1, m2, m3⟩ := hmerged q nd hs hcv
        rw [hside, ← mean_sideOf (hw.sidesNe q nd ⟨hs, by simp⟩), hcl, Clusters.finalizeAll_means]
        exact Kmeans.finMean_of_counts (m1 j) (fun x => m3 j x) (m2 j))
  have hchk : forEach checkActive sE.keys sE = .ok sE := by
    obtain ⟨s2, e2, h2⟩ := forEach_inv (f := checkActive)
      (P := fun l st => st = sE ∧ ∀ q ∈ l, s.active[q]? = some true) (by
        rintro q l st ⟨rfl, h⟩
        refine ⟨sE, ?_, rfl, fun q' hq' => h q' (List.mem_cons_of_mem _ hq')⟩
        unfold checkActive VMap.flagsGet
        rw [show sE.active[q]? = some true from h q (by simp)]) sE.keys sE ⟨rfl, by
          intro q hq
          obtain ⟨_, nd, hnd⟩ := mem_keys.1 hq
          exact hw.keyAct q nd ⟨hnd, by simp⟩⟩
    rw [e2, h2.1]
  refine ⟨s', ?_, ?_⟩
  · unfold iteration
    rw [e]
    simp only
    unfold updateClusters
    change (match forEach checkActive sE.keys sE with
      | .error e => Except.error e
      | .ok s1 =>
        forEach (nodeStep c.tol (mergeChanged T p.acc)) (mergeNodes T p.acc s1).keys
          (mergeNodes T p.acc s1)) = _
    rw [hchk]
    exact eU
  · refine ⟨fun q => (u1 q).trans (hshape q), u2, u3, u4, u5, u6, u7, u9, u10, ?_, ?_, ?_, ?_, ?_⟩
    · intro i h1 h2 r hrN
      rw [u8]; exact huntouched i h1 h2 r hrN
    · intro r hrN hf
      rw [u8]; exact hstay r hrN hf
    · intro r nd hrN hf hnd hcv
      rw [u8]; exact (hconv r nd hrN hf hnd hcv).1
    · intro r nd hrN hf hnd hcv
      obtain ⟨i, h1, h2⟩ := hmove r nd hrN hf hnd hcv
      exact ⟨i, by rw [u8]; exact h1, hnear r nd i hnd h2⟩
    · intro q nd nd' hq hq'
      obtain ⟨ndM, hqM⟩ : ∃ ndM, sM.hc q = some ndM := by
        rw [hsMhc, hq]
        simp only
        split <;> exact ⟨_, rfl⟩
      obtain ⟨nd2, h2, hside, hcv', hor⟩ := hgetM q ndM hqM
      obtain rfl : nd2 = nd := Option.some.inj (h2.symm.trans hq)
      have ht := u11 q ndM nd' hqM hq'
      rw [hcv'] at ht
      rcases hor with ⟨hcv, _⟩ | ⟨hcv, hcl⟩
      · rw [ht, hcv]
        simp
      · rw [hcv] at ht ⊢
        simp only [Bool.false_eq_true, if_false, false_or] at ht ⊢
        obtain ⟨m0, _, m2, _⟩ := hmerged q nd2 hq hcv
        have hch : mergeChanged T p.acc q = changedRows c.nrow s s' q := by
          rw [m0]
          unfold changedRows
          rw [Finset.card_filter]
          apply Finset.sum_congr rfl
          intro r hr'
          rw [Finset.mem_range] at hr'
          unfold chgAt
          by_cases hpq : s.part r = q
          · simp only [hpq, if_true, true_and]
            rw [u8]
            show _ = if p.mem r ≠ s.assign r then 1 else 0
            have hq2 : s.hc (s.part r) = some nd2 := by rw [hpq]; exact hq
            cases hf : s.final (s.assign r) with
            | some v =>
              have hfs : (s.final (s.assign r)).isSome := by rw [hf]; rfl
              have hc0 : choose c s r (s.assign r) = .ok none := by
                rcases choose_ok hw hr hr' with ⟨_, h⟩ | ⟨_, h0, _⟩
                · exact h
                · rw [hf] at h0; cases h0
              rw [hc0, hstay r hr' hfs]
              simp
            | none =>
              obtain ⟨i, hi, hch⟩ := hmove r nd2 hr' hf hq2 hcv
              rw [hch, hi]
          · simp [hpq]
        have hz := m2 0
        have ho := m2 1
        rw [count_sideOf (hw.sidesNe q nd2 ⟨hq, by simp⟩)] at hz ho
        rw [ht, hch, hcl, hz, ho, u8]
        unfold nodeConv
        rw [Bool.or_eq_true, beq_iff_eq, decide_eq_true_eq, side_zero, side_one]
        push_cast
        rfl

theorem IterOk.wf [Field R] [LE R] [LE D] {c : Cfg R D n} {M : Nat} {s s' : St R n} {live : Finset Nat}
    (h : IterOk c M s s') (hw : Wf M [] [] live s) : Wf M [] [] live s' :=
  hw.of_shape h.shape h.active h.lenC h.hsize h.gen h.final

/-- A row is the mean of itself. -/
theorem meanOf_single [Field R] {N : Nat} (data : Nat → Row R n) {q : Nat} (hq : q < N) :
    meanOf N data (fun r => if r = q then 1 else 0) 1 = data q := by
  have h : (Finset.range N).filter (fun r => (if r = q then 1 else 0) = 1) = {q} := by
    ext r
    rw [Finset.mem_filter, Finset.mem_range, Finset.mem_singleton]
    constructor
    · rintro ⟨_, h⟩
      by_contra hne
      rw [if_neg hne] at h
      cases h
    · rintro rfl; exact ⟨hq, if_pos rfl⟩
  funext j
  unfold meanOf size
  rw [h]
  simp

theorem _root_.Knor.Spec.MeansWithin.row [Field R] [LT D] {N : Nat} {data : Nat → Row R n} {dist : Row R n → Row R n → D}
    {big : D} (h : MeansWithin N data dist big) (r : Nat) (hr : r < N) (q : Nat) (hq : q < N) :
    dist (data r) (data q) < big := by
  have := h r hr (fun r => if r = q then 1 else 0) 1
  rwa [meanOf_single data hq] at this

theorem Settled.ready [Field R] [LT D] {c : Cfg R D n} {M : Nat} {s : St R n}
    (h : Settled c.nrow M c.data s) (hbig : MeansWithin c.nrow c.data c.dist c.big) : Ready c M s := by
  refine ⟨?_, fun i hi _ _ => h.counts i hi, ?_, fun p nd j hp _ => h.nodes p nd j hp, fun p nd j r hp hr => by
    rw [(h.nodes p nd j hp).2]; exact hbig r hr _ _⟩
  · intro r hr
    rcases h.rows r hr with h1 | ⟨nd, j, h1, h2⟩
    · exact Or.inl h1
    · exact Or.inr ⟨nd, h1, Or.inr ⟨j, h2⟩⟩
  · intro p nd hp _ r hr e
    subst e
    rcases h.rows r hr with h1 | ⟨nd', j, h1, h2⟩
    · rw [hp] at h1; cases h1.2
    · rw [hp] at h1; cases h1; exact ⟨j, h2⟩

end Knor.Hclust
