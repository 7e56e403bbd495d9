import Verif.Lemmas.Project
import Verif.Props.Score

/-!
# C79 and C81 in runs: the decisions of x-means and g-means from the data
-/

namespace Knor.Score

open Knor Hclust Xmeans Spec

variable {R : Type _} {n : Nat}

/-! ## C81 -/

/-- The projections of the rows of partition `p`, whose sides are the clusters `z` and `o`, on the line through
the means of the two sides: `⟨x, v⟩ / ⟨v, v⟩` with `v` the difference of the means. -/
def projected [Field R] (N : Nat) (data : Nat → Fin n → R) (assign part : Nat → Nat) (p z o : Nat) : List R :=
  let v : Fin n → R := fun j => meanOf N data assign z j - meanOf N data assign o j
  ((List.range N).filter fun r => part r = p).map fun r => (∑ j, data r j * v j) / ∑ j, v j * v j

theorem sample_projected {D : Type _} [Field R] [DecidableEq R] {c : Cfg R D n} {s : St R n} {M : Nat} {live : Finset Nat}
    (hw : Wf M [] [] live s) (hst : Settled c.nrow M c.data s) {old cd : Nat → R} (val : R → ℝ)
    (h : projectRows c s (List.range c.nrow) old = .ok cd) {p : Nat} {nd : Node R n} (hp : s.hc p = some nd) :
    sample c.nrow s.part (fun r => val (cd r)) p =
      (projected c.nrow c.data s.assign s.part p nd.zero nd.one).map val := by
  unfold sample projected
  rw [List.map_map]
  apply List.map_congr_left
  intro r hr
  obtain ⟨h1, h2⟩ := List.mem_filter.1 hr
  obtain ⟨_, h3⟩ := project_row hw hst h (List.mem_range.1 h1) hp (by simpa using h2)
  have h0 := (hst.nodes p nd 0 hp).2
  have h1 := (hst.nodes p nd 1 hp).2
  rw [side_zero] at h0
  rw [side_one] at h1
  rw [Function.comp_apply, h3, dot_eq, dot_eq]
  unfold direction
  rw [h0, h1]

/-- **C81, partial**, in runs: in every one of the first `3 K - 6` rounds of every run of g-means the sample of a
partition that is being split is that of the projections of its rows on the line through the means of its two
sides, and the split is taken back exactly if the Anderson-Darling statistic of these projections is at most
the critical value for a sample whose size is the number of different partition numbers of the rows.
Missing: the critical value for the size of the sample (`C81_violated`), and later rounds (C73). -/
theorem C81_runs_partial {D : Type _} [Field R] [LinearOrder R] [LinearOrder D] (c : Cfg R D n) (it : HInit R n)
    (hs : Sane c) (hn : 0 < n) (hmin : 2 ≤ c.minSize) (hmi : 1 ≤ c.maxIters)
    (hbig : MeansWithin c.nrow c.data c.dist c.big) (hit : Startable c it) (t : Nat) (hist : List Nat)
    (s s1 s2 : XSt R n) (h : Reached .g c it t hist s) (ht : t + 6 ≤ 3 * hclustFloor c.kmax)
    (e1 : meanPhase c s = .ok s1)
    (sched : Nat → List Nat) (hc : ∀ i, Par.Complete (Partition.effThreads c.reqThreads c.nrow)
      (Kmeans.threadRows c.nrow c.reqThreads) (sched i)) (e2 : iterate .g c sched s1 = .ok s2)
    (val : R → ℝ) (phi : ℝ → ℝ) (strict : Nat) (a : ℝ) (ha : avals[strict]? = some a) (old : Nat → R) (rej : List Nat)
    (hr : adDecide val phi strict c old s2.h = .ok rej) (p z o : Nat) (hp : sides s2.h p = some (z, o))
    (hne : ∃ x ∈ projected c.nrow c.data s2.h.assign s2.h.part p z o,
      ∃ y ∈ projected c.nrow c.data s2.h.assign s2.h.part p z o, val x ≠ val y) :
    p ∈ rej ↔ ∃ A, IsAndersonDarling phi ((projected c.nrow c.data s2.h.assign s2.h.part p z o).map val) A ∧
      A ≤ critical a ((Finset.range c.nrow).image s2.h.part).card := by
  obtain ⟨⟨live, hw⟩, hst, hpop, _, _⟩ := round_inv hs hn hmin hmi hbig hit h (fun _ => ht) e1 hc e2
  unfold sides at hp
  obtain ⟨nd, hnd, hpe⟩ := Option.map_eq_some_iff.1 hp
  cases hpe
  unfold adDecide at hr
  cases e : projectRows c s2.h (List.range c.nrow) old with
  | error x => rw [e] at hr; cases hr
  | ok cd =>
    rw [e] at hr
    have hsm := sample_projected hw hst val e hnd
    rw [← hsm]
    refine C81_rule_partial phi strict c.nrow a _ s2.h rej ha hr p ((mem_keys' hw).2 ⟨nd, hnd⟩) ?_
    obtain ⟨x, hx, y, hy, hxy⟩ := hne
    rw [hsm]
    exact ⟨_, List.mem_map.2 ⟨x, hx, rfl⟩, _, List.mem_map.2 ⟨y, hy, rfl⟩, hxy⟩

/-! ## A run that meets the hypotheses -/

/-- Eight rows, at most four clusters and three iterations in a round. -/
abbrev eight : Cfg ℚ (WithTop ℚ) 1 := demoTop [0, 1, 10, 11, 20, 21, 30, 31] 4 3 2

theorem eight_sane : Sane eight := ⟨by decide, by decide, by decide, by decide, by decide⟩

/-- The first round of both algorithms on these rows: one partition, whose sides are the clusters 1 and 2, of four
rows each, and which has converged. -/
theorem eight_round (alg : Alg) : ∃ s s1 s2 : XSt ℚ 1, start eight (.forgy 0 4) = .ok s ∧ meanPhase eight s = .ok s1 ∧
    iterate alg eight (fun _ => List.replicate 8 0) s1 = .ok s2 ∧ s2.h.keys = [0] ∧ sides s2.h 0 = some (1, 2) ∧
    (s2.h.hc 0).map Node.conv = some true ∧ (List.range 8).map s2.h.assign = [1, 1, 1, 1, 2, 2, 2, 2] ∧
    (List.range 8).map s2.h.part = List.replicate 8 0 ∧
    projected 8 eight.data s2.h.assign s2.h.part 0 1 2 =
      [0, -1 / 20, -1 / 2, -11 / 20, -1, -21 / 20, -3 / 2, -31 / 20] := by
  have hd : (match start eight (.forgy 0 4) with
      | .ok s => match meanPhase eight s with
        | .ok s1 => match iterate alg eight (fun _ => List.replicate 8 0) s1 with
          | .ok s2 => decide (s2.h.keys = [0] ∧ sides s2.h 0 = some (1, 2) ∧
              (s2.h.hc 0).map Node.conv = some true ∧ (List.range 8).map s2.h.assign = [1, 1, 1, 1, 2, 2, 2, 2] ∧
              (List.range 8).map s2.h.part = List.replicate 8 0 ∧
              projected 8 eight.data s2.h.assign s2.h.part 0 1 2 =
                [0, -1 / 20, -1 / 2, -11 / 20, -1, -21 / 20, -3 / 2, -31 / 20])
          | _ => false
        | _ => false
      | _ => false) = true := by cases alg <;> decide +kernel
  split at hd
  · rename_i s e0
    split at hd
    · rename_i s1 e1
      split at hd
      · rename_i s2 e2
        exact ⟨s, s1, s2, e0, e1, e2, of_decide_eq_true hd⟩
      · cases hd
    · cases hd
  · cases hd

theorem eight_complete (i : Nat) : Par.Complete (Partition.effThreads eight.reqThreads eight.nrow)
    (Kmeans.threadRows eight.nrow eight.reqThreads) ((fun _ => List.replicate 8 0 : Nat → List Nat) i) :=
  complete_demoTop [0, 1, 10, 11, 20, 21, 30, 31] (by decide) (by decide) 4 3 2

/-- The rows 0 and 4 of these have different projections, so that `C81_runs_partial` speaks about the first round. -/
example : ∃ s s1 s2 : XSt ℚ 1, start eight (.forgy 0 4) = .ok s ∧ meanPhase eight s = .ok s1 ∧
    iterate .g eight (fun _ => List.replicate 8 0) s1 = .ok s2 ∧
    ∀ (old : Nat → ℚ) (rej : List Nat), adDecide (fun q : ℚ => (q : ℝ)) Phi 4 eight old s2.h = .ok rej →
      (0 ∈ rej ↔ ∃ A, IsAndersonDarling Phi
        (([0, -1 / 20, -1 / 2, -11 / 20, -1, -21 / 20, -3 / 2, -31 / 20] : List ℚ).map fun q => (q : ℝ)) A ∧
        A ≤ critical (1092 / 1000) ((Finset.range 8).image s2.h.part).card) := by
  obtain ⟨s, s1, s2, e0, e1, e2, _, h2, _, _, _, h6⟩ := eight_round .g
  refine ⟨s, s1, s2, e0, e1, e2, fun old rej hr => ?_⟩
  have := C81_runs_partial eight (.forgy 0 4) eight_sane (by decide) (by decide) (by decide)
    (fun r _ a i => WithTop.coe_lt_top _) ⟨by decide, by decide⟩ 0 [] s s1 s2 (.start e0) (by decide) e1 _ eight_complete e2
    (fun q : ℚ => (q : ℝ)) Phi 4 (1092 / 1000) (by simp [avals]) old rej hr 0 1 2 h2
    (by
      rw [show eight.nrow = 8 from rfl, h6]
      exact ⟨0, by simp, -1, by simp, by norm_num⟩)
  rw [show eight.nrow = 8 from rfl, h6] at this
  exact this

theorem accumulateInt_const (z : Int) : ∀ (m : Nat) (acc : Int),
    Linalg.accumulateInt (List.replicate m (z : ℝ)) acc = .ok (acc + m * z) ∨
      Linalg.accumulateInt (List.replicate m (z : ℝ)) acc = .error .ub
  | 0, acc => by left; simp [Linalg.accumulateInt]
  | m + 1, acc => by
    rw [List.replicate_succ]
    unfold Linalg.accumulateInt
    have ht : Linalg.trunc ((acc : ℝ) + (z : ℝ)) = acc + z := by
      rw [← Int.cast_add]
      unfold Linalg.trunc
      split
      · exact Int.floor_intCast _
      · exact Int.ceil_intCast _
    dsimp only
    rw [ht]
    split
    · rcases accumulateInt_const z m (acc + z) with h | h
      · left; rw [h]; push_cast; congr 1; ring
      · right; exact h
    · right; rfl

/-- Standardising a constant vector of integers aborts, or overflows. -/
theorem scale_const (z : Int) (m : Nat) (hm : 0 < m) :
    Linalg.scale Real.sqrt (List.replicate m (z : ℝ)) = .error .assertFail ∨
      Linalg.scale Real.sqrt (List.replicate m (z : ℝ)) = .error .ub := by
  unfold Linalg.scale
  rcases accumulateInt_const z m 0 with h | h
  · left
    rw [h]
    dsimp only
    have hm' : (m : ℝ) ≠ 0 := Nat.cast_ne_zero.2 hm.ne'
    have hmean : (((0 + m * z : Int) : ℝ)) / ((List.replicate m (z : ℝ)).length : ℝ) = z := by
      rw [List.length_replicate]
      push_cast
      field_simp
      ring
    rw [hmean]
    have hsq : ∀ (k : Nat), (List.replicate k (z : ℝ)).foldl (fun s x => s + (x - (z : ℝ)) * (x - (z : ℝ))) (0 : ℝ) = 0 := by
      intro k
      induction k with
      | zero => rfl
      | succ k ih => rw [List.replicate_succ, List.foldl_cons]; simpa using ih
    rw [hsq, zero_div, Real.sqrt_zero, if_pos rfl]
  · right; rw [h]

theorem adScores_error {phi : ℝ → ℝ} {nrow : Nat} {part : Nat → Nat} {cd : Nat → ℝ} {p : Nat} {e : Fault}
    (he : Linalg.scale Real.sqrt (adVec nrow part cd p) = .error e) :
    ∀ ks : List Nat, p ∈ ks → ∃ e', adScores phi nrow part cd ks = .error e'
  | [], h => by cases h
  | k :: ks, h => by
    unfold adScores
    cases e1 : Linalg.scale Real.sqrt (adVec nrow part cd k) with
    | error x => exact ⟨x, rfl⟩
    | ok v =>
      have hk : p ∈ ks := by
        rcases List.mem_cons.1 h with rfl | h
        · rw [he] at e1; cases e1
        · exact h
      obtain ⟨e', h'⟩ := adScores_error (phi := phi) he ks hk
      exact ⟨e', by dsimp only; rw [h']⟩

/-- The decision of g-means throws nothing. -/
theorem adDecide_error {D : Type _} [Field R] [DecidableEq R] {val : R → ℝ} {phi : ℝ → ℝ} {strict : Nat} {c : Cfg R D n}
    {old : Nat → R} {s : St R n} {e : Fault} (h : adDecide val phi strict c old s = .error e) : e = .assertFail ∨ e = .ub := by
  cases e with
  | assertFail => exact Or.inl rfl
  | ub => exact Or.inr rfl
  | throws =>
    exfalso
    unfold adDecide at h
    cases e1 : projectRows c s (List.range c.nrow) old with
    | error x => rw [e1] at h; cases h; cases projectRows_error _ _ e1
    | ok cd =>
      rw [e1] at h
      dsimp only at h
      unfold adRejected at h
      cases e2 : adScores phi c.nrow s.part (fun r => val (cd r)) (adKeys c.nrow s.part) with
      | error x => rw [e2] at h; cases h; exact adScores_no_throw _ _ _ _ _ e2
      | ok f =>
        rw [e2] at h
        dsimp only at h
        split at h <;> cases h

/-- **C81**, what happens for duplicate rows: if in one of the first `3 K - 6` rounds of a run of g-means a
partition that is being split consists of copies of one row, the program aborts (or its behaviour is
undefined), whatever the data, the level and the distribution function. -/
theorem C81_limit_duplicates_fail {D : Type _} [Field R] [CharZero R] [LinearOrder R] [LinearOrder D] (c : Cfg R D n) (it : HInit R n)
    (hs : Sane c) (hn : 0 < n) (hmin : 2 ≤ c.minSize) (hmi : 1 ≤ c.maxIters)
    (hbig : MeansWithin c.nrow c.data c.dist c.big) (hit : Startable c it) (t : Nat) (hist : List Nat)
    (s s1 s2 : XSt R n) (h : Reached .g c it t hist s) (ht : t + 6 ≤ 3 * hclustFloor c.kmax)
    (e1 : meanPhase c s = .ok s1)
    (sched : Nat → List Nat) (hc : ∀ i, Par.Complete (Partition.effThreads c.reqThreads c.nrow)
      (Kmeans.threadRows c.nrow c.reqThreads) (sched i)) (e2 : iterate .g c sched s1 = .ok s2)
    (val : R →+* ℝ) (phi : ℝ → ℝ) (strict : Nat) (old : Nat → R) (p : Nat) (hp : p ∈ s2.h.keys) (x : Row R n)
    (hx : ∀ r, r < c.nrow → s2.h.part r = p → c.data r = x) :
    adDecide val phi strict c old s2.h = .error .assertFail ∨ adDecide val phi strict c old s2.h = .error .ub := by
  obtain ⟨⟨live, hw⟩, hst, hpop, _, _⟩ := round_inv hs hn hmin hmi hbig hit h (fun _ => ht) e1 hc e2
  obtain ⟨nd, hnd⟩ := (mem_keys' hw).1 hp
  cases e : adDecide val phi strict c old s2.h with
  | error f => rcases adDecide_error e with rfl | rfl
               · exact Or.inl rfl
               · exact Or.inr rfl
  | ok rej =>
    exfalso
    unfold adDecide at e
    cases ep : projectRows c s2.h (List.range c.nrow) old with
    | error f => rw [ep] at e; cases e
    | ok cd =>
      rw [ep] at e
      have hso := Sound.of hw hst
      -- the two means
      have hmean : ∀ j, nd.cl.means j = if size c.nrow s2.h.assign (nd.side j) = 0 then 0 else x := by
        intro j
        rw [(hst.nodes p nd j hnd).2]
        apply meanOf_const
        intro r hr ha
        exact hx r hr ((hso.rows r hr p nd hnd).2 ⟨j, ha⟩)
      obtain ⟨r0, hr0, hr0p⟩ := hpop p nd hnd
      obtain ⟨hd0, _⟩ := project_row hw hst ep hr0 hnd hr0p
      have hq : ∃ z : Int, ∀ r, r < c.nrow → s2.h.part r = p → val (cd r) = z := by
        have hall : ∀ r, r < c.nrow → s2.h.part r = p →
            cd r = dot x (direction nd) / dot (direction nd) (direction nd) := by
          intro r hr hrp
          rw [(project_row hw hst ep hr hnd hrp).2, hx r hr hrp]
        have hdir : direction nd = 0 ∨ direction nd = x ∨ direction nd = -x := by
          unfold direction
          rw [hmean 0, hmean 1]
          split <;> split
          · left; funext j; simp
          · right; right; funext j; simp
          · right; left; funext j; simp
          · left; funext j; simp
        rcases hdir with h0 | h0 | h0
        · rw [h0, dot_zero] at hd0; exact absurd rfl hd0
        · refine ⟨1, fun r hr hrp => ?_⟩
          rw [hall r hr hrp]
          rw [h0] at hd0 ⊢
          rw [div_self hd0]; simp
        · refine ⟨-1, fun r hr hrp => ?_⟩
          rw [hall r hr hrp]
          rw [h0] at hd0 ⊢
          rw [dot_neg_neg] at hd0 ⊢
          rw [dot_self_neg, neg_div, div_self hd0]; simp
      obtain ⟨z, hz⟩ := hq
      -- the sample is constant
      have hvec : adVec c.nrow s2.h.part (fun r => val (cd r)) p =
          List.replicate ((List.range c.nrow).filter fun r => s2.h.part r = p).length (z : ℝ) := by
        unfold adVec
        rw [List.eq_replicate_iff]
        refine ⟨by simp, ?_⟩
        intro y hy
        obtain ⟨r, hr, rfl⟩ := List.mem_map.1 hy
        obtain ⟨h1, h2⟩ := List.mem_filter.1 hr
        exact hz r (List.mem_range.1 h1) (by simpa using h2)
      have hpos : 0 < ((List.range c.nrow).filter fun r => s2.h.part r = p).length := by
        apply List.length_pos_of_mem (a := r0)
        exact List.mem_filter.2 ⟨List.mem_range.2 hr0, by simpa using hr0p⟩
      have hmem : p ∈ adKeys c.nrow s2.h.part := by
        unfold adKeys
        rw [List.mem_dedup, List.mem_map]
        exact ⟨r0, List.mem_range.2 hr0, hr0p⟩
      have hsc : ∃ f, Linalg.scale Real.sqrt (adVec c.nrow s2.h.part (fun r => val (cd r)) p) = .error f := by
        rw [hvec]
        rcases scale_const z _ hpos with h | h
        · exact ⟨_, h⟩
        · exact ⟨_, h⟩
      obtain ⟨f, hf⟩ := hsc
      obtain ⟨e', he'⟩ := adScores_error (phi := phi) hf _ hmem
      unfold adRejected at e
      dsimp only at e
      rw [he'] at e
      cases e

/-- **C81**, the simplest case: every run of g-means on a data set all of whose rows are the same aborts (or its
behaviour is undefined). -/
theorem C81_limit_constant_data_fails {D : Type _} [Field R] [CharZero R] [LinearOrder R] [LinearOrder D] (c : Cfg R D n)
    (it : HInit R n)
    (hs : Sane c) (hn : 0 < n) (hmin : 2 ≤ c.minSize) (hmi : 1 ≤ c.maxIters)
    (hbig : MeansWithin c.nrow c.data c.dist c.big) (hit : Startable c it)
    (sched : Nat → Nat → List Nat) (hc : ∀ t i, Par.Complete (Partition.effThreads c.reqThreads c.nrow)
      (Kmeans.threadRows c.nrow c.reqThreads) (sched t i))
    (val : R →+* ℝ) (phi : ℝ → ℝ) (strict : Nat) (old : Nat → Nat → R) (x : Row R n) (hx : ∀ r, r < c.nrow → c.data r = x)
    (fuel : Nat) (hfu : 0 < fuel) :
    runD .g c it (fun t s => adDecide val phi strict c (old t) s) sched fuel = .error .assertFail ∨
      runD .g c it (fun t s => adDecide val phi strict c (old t) s) sched fuel = .error .ub := by
  obtain ⟨fuel, rfl⟩ : ∃ f, fuel = f + 1 := ⟨fuel - 1, by omega⟩
  obtain ⟨s, e0, hxb, _⟩ := start_ok (c := c) hbig hs.two hs.kLt hs.rows .g hit
  have hf := fine_only (ks := []) (rej := []) hs hn hmin hmi hbig (hc 0) List.nodup_nil (by simp)
  obtain ⟨s1, e1, m1, k1, hh⟩ := round_ok hf hxb
  unfold runD
  simp only [e0]
  unfold loopD
  simp only [e1]
  rcases hh with ⟨_, e2⟩ | ⟨h2, h3, d3, e2, hro, _⟩
  · simp [e2]
  · simp only [e2]
    have hkeys : ∃ p, p ∈ h2.keys := by
      have h1 := shape_keys hro.hsize hro.shape
      have h3 := hxb.bd.start.ne
      rw [h1]
      exact List.exists_mem_of_length_pos h3
    obtain ⟨p, hp⟩ := hkeys
    have h6 : 0 + 6 ≤ 3 * hclustFloor c.kmax := by
      have := (Hclust.sizes (c := c) hs.two hs.kLt).1
      have h2 := hs.two
      have : 2 ≤ hclustFloor c.kmax := by
        unfold hclustFloor
        have : 1 ≤ Nat.log2 c.kmax := (Nat.le_log2 (by omega)).2 (by omega)
        calc 2 = 2 ^ 1 := rfl
          _ ≤ _ := Nat.pow_le_pow_right (by decide) this
      omega
    rcases C81_limit_duplicates_fail c it hs hn hmin hmi hbig hit 0 [] s s1 { s1 with h := h2 } (.start e0) h6 e1 (sched 0)
      (hc 0) e2 val phi strict (old 0) p hp x (fun r hr _ => hx r hr) with h | h
    · rw [h]; exact Or.inl rfl
    · rw [h]; exact Or.inr rfl

/-- Eight times the same row: in the first round, the case of `C81_limit_duplicates_fail`. -/
example (old : Nat → Nat → ℚ) : runD .g (demoTop (List.replicate 8 5) 4 3 2) (.forgy 0 4)
      (fun t s => adDecide (Rat.castHom ℝ) Phi 4 (demoTop (List.replicate 8 5) 4 3 2) (old t) s)
      (fun _ _ => List.replicate 8 0) 6 = .error .assertFail ∨
    runD .g (demoTop (List.replicate 8 5) 4 3 2) (.forgy 0 4)
      (fun t s => adDecide (Rat.castHom ℝ) Phi 4 (demoTop (List.replicate 8 5) 4 3 2) (old t) s)
      (fun _ _ => List.replicate 8 0) 6 = .error .ub :=
  C81_limit_constant_data_fails (demoTop (List.replicate 8 5) 4 3 2) (.forgy 0 4)
    ⟨by decide, by decide, by decide, by decide, by decide⟩ (by decide) (by decide) (by decide)
    (fun r _ a i => WithTop.coe_lt_top _) ⟨by decide, by decide⟩ (fun _ _ => List.replicate 8 0)
    (fun _ _ => complete_demoTop (List.replicate 8 5) (by decide) (by decide) 4 3 2)
    (Rat.castHom ℝ) Phi 4 old (fun _ => 5)
    (by
      intro r hr
      funext j
      change ([5, 5, 5, 5, 5, 5, 5, 5] : List ℚ).getD r 0 = 5
      have : r < 8 := hr
      interval_cases r <;> rfl) 6 (by decide)

/-! ## C79 -/

/-- The iterations of a round record distances without failing, and end in the state that `iterate` ends in. -/
theorem recorded_round {R D : Type _} {n : Nat} [Field R] [LinearOrder R] [LinearOrder D] {c : Cfg R D n} {it : HInit R n}
    (hs : Sane c) (hn : 0 < n) (hmin : 2 ≤ c.minSize) (hmi : 1 ≤ c.maxIters)
    (hbig : MeansWithin c.nrow c.data c.dist c.big) (hit : Startable c it) {t : Nat} {hist : List Nat}
    {s s1 s2 : XSt R n} (h : Reached .x c it t hist s) (e1 : meanPhase c s = .ok s1)
    {sched : Nat → List Nat} (hc : ∀ i, Par.Complete (Partition.effThreads c.reqThreads c.nrow)
      (Kmeans.threadRows c.nrow c.reqThreads) (sched i)) (e2 : iterate .x c sched s1 = .ok s2) (cd0 : Nat → D) :
    (∀ r, r < c.nrow → s1.h.part r = s1.h.assign r) ∧ s2.h.part = s1.h.part ∧
    ∃ cd, recordIters c sched (List.range c.maxIters) s1.h cd0 = .ok (s2.h, cd) ∧
      ∀ r nd, r < c.nrow → s2.h.hc (s2.h.part r) = some nd →
        Recorded c sched c.maxNodes s1.h cd0 c.maxIters s2.h cd r := by
  obtain ⟨d, live, hx, hnum⟩ := h.inv hs hn hmin hmi hbig hit (by intro h; cases h)
  have hf := fine_only (ks := []) (rej := []) hs hn hmin hmi hbig hc List.nodup_nil (by simp)
  obtain ⟨s1', e1', m1, k1, hh⟩ := round_ok hf hx
  rw [e1'] at e1; cases e1
  have hw1 : Wf c.maxNodes [] [] live s1.h := by rw [m1.h]; exact hx.bd.wf
  have hr1 : Ready c c.maxNodes s1.h := by rw [m1.h]; exact hx.bd.ready
  have hhome : ∀ r, r < c.nrow → s1.h.part r = s1.h.assign r := by rw [m1.h]; exact hx.home
  have hopen : ∀ r nd, r < c.nrow → s1.h.hc (s1.h.part r) = some nd → nd.conv = false := by
    intro r nd hr hp
    by_contra hcv
    obtain ⟨j, hj⟩ := hr1.convRows _ nd hp (by simpa using hcv) r hr rfl
    rw [← hhome r hr] at hj
    exact hw1.key_not_child (by rw [hp]) ⟨_, nd, j, ⟨hp, by simp⟩, hj.symm⟩
  obtain ⟨s', cd, e, hw', _, hpart, _, _, hrec⟩ := recorded (cd0 := cd0) hw1 hr1 hbig hf.rows hf.threads hf.rowsLt hc hopen
    c.maxIters
  have hit : iterations c sched s1.h = .ok s2.h := by
    unfold iterate at e2
    split at e2
    · cases e2
    · split at e2
      · cases e2
      · rename_i h1 hi
        simp only [reduceCtorEq, if_false] at e2
        cases e2
        exact hi
  obtain ⟨cd', hcd'⟩ := recordIters_fst (c := c) (sched := sched) _ _ _ cd0 hit
  rw [e] at hcd'
  cases hcd'
  refine ⟨hhome, hpart, cd, e, fun r nd hr hp => ?_⟩
  rcases hrec r nd hr hp with ⟨_, h0⟩ | h0
  · omega
  · exact h0

/-- **C79** in runs, the distances of the children's score: what is recorded for a row of a partition that is
being split is its distance to the side that it ends on, which is its first nearest one, where the sides'
centroids are those that the partition had at the start of some iteration of this round, after which no row of
the partition changed side. -/
theorem C79_recorded_distance {R D : Type _} {n : Nat} [Field R] [LinearOrder R] [LinearOrder D] (c : Cfg R D n)
    (it : HInit R n)
    (hs : Sane c) (hn : 0 < n) (hmin : 2 ≤ c.minSize) (hmi : 1 ≤ c.maxIters)
    (hbig : MeansWithin c.nrow c.data c.dist c.big) (hit : Startable c it) (t : Nat) (hist : List Nat)
    (s s1 s2 : XSt R n) (h : Reached .x c it t hist s) (e1 : meanPhase c s = .ok s1)
    (sched : Nat → List Nat) (hc : ∀ i, Par.Complete (Partition.effThreads c.reqThreads c.nrow)
      (Kmeans.threadRows c.nrow c.reqThreads) (sched i)) (e2 : iterate .x c sched s1 = .ok s2)
    (cd0 : Nat → D) :
    ∃ cd, recordIters c sched (List.range c.maxIters) s1.h cd0 = .ok (s2.h, cd) ∧
      ∀ r nd2, r < c.nrow → s2.h.hc (s2.h.part r) = some nd2 →
        ∃ k, k < c.maxIters ∧ ∃ sk sk' nd i,
          forEach (fun s i => iteration c (sched i) s) (List.range k) s1.h = .ok sk ∧
          iteration c (sched k) sk = .ok sk' ∧ sk.hc (s2.h.part r) = some nd ∧
          s2.h.assign r = nd2.side i ∧ IsFirstNearest (fun i => c.dist (c.data r) (nd.cl.means i)) i ∧
          cd r = c.dist (c.data r) (nd.cl.means i) ∧
          ∀ r', r' < c.nrow → s2.h.part r' = s2.h.part r → s2.h.assign r' = sk'.assign r' := by
  obtain ⟨hhome, hpart, cd, e, hrec⟩ := recorded_round hs hn hmin hmi hbig hit h e1 hc e2 cd0
  refine ⟨cd, e, fun r nd2 hr hp => ?_⟩
  obtain ⟨k, hk, sk, cdk, nd, i, sk1, h1, h2, h3, h4, h5, h6, h7, _, _, h10⟩ := hrec r nd2 hr hp
  obtain ⟨ha, hb, _⟩ := h10 nd2 (by rw [← hpart]; exact hp)
  refine ⟨k, hk, sk, sk1, nd, i, recordIters_forEach h1, h2, by rw [hpart]; exact h3, ?_, h5, h6, ?_⟩
  · rw [h4]
    unfold Node.side
    rw [ha, hb]
  · rw [hpart]; exact h7

/-- **C79** in runs, the distances of the children's score: if the tolerance is zero and the partition converged
in the round, they are the distances of the rows to the means of the sides. -/
theorem C79_converged_distance {R D : Type _} {n : Nat} [Field R] [LinearOrder R] [IsStrictOrderedRing R] [LinearOrder D]
    (c : Cfg R D n) (it : HInit R n)
    (hs : Sane c) (hn : 0 < n) (hmin : 2 ≤ c.minSize) (hmi : 1 ≤ c.maxIters) (htol : c.tol ≤ 0)
    (hbig : MeansWithin c.nrow c.data c.dist c.big) (hit : Startable c it) (t : Nat) (hist : List Nat)
    (s s1 s2 : XSt R n) (h : Reached .x c it t hist s) (e1 : meanPhase c s = .ok s1)
    (sched : Nat → List Nat) (hc : ∀ i, Par.Complete (Partition.effThreads c.reqThreads c.nrow)
      (Kmeans.threadRows c.nrow c.reqThreads) (sched i)) (e2 : iterate .x c sched s1 = .ok s2)
    (cd0 : Nat → D) :
    ∃ cd, recordIters c sched (List.range c.maxIters) s1.h cd0 = .ok (s2.h, cd) ∧
      ∀ r nd, r < c.nrow → s2.h.hc (s2.h.part r) = some nd → nd.conv = true →
        cd r = c.dist (c.data r) (meanOf c.nrow c.data s2.h.assign (s2.h.assign r)) := by
  obtain ⟨hhome, hpart, cd, e, hrec⟩ := recorded_round hs hn hmin hmi hbig hit h e1 hc e2 cd0
  refine ⟨cd, e, fun r nd2 hr hp hcv => ?_⟩
  obtain ⟨⟨live2, hw2⟩, hst2, _⟩ := round_inv hs hn hmin hmi hbig hit h (by intro h; cases h) e1 hc e2
  obtain ⟨k, hk, sk, cdk, nd, i, sk1, h1, h2, h3, h4, h5, h6, h7, h8, h9, h10⟩ := hrec r nd2 hr hp
  obtain ⟨ha, hb, hcc⟩ := h10 nd2 (by rw [← hpart]; exact hp)
  have hso := Sound.of hw2 hst2
  have hrow : ∀ r', r' < c.nrow → s1.h.part r' = s1.h.part r → s2.h.assign r' = nd.zero ∨ s2.h.assign r' = nd.one := by
    intro r' hr' hpr
    obtain ⟨j, hj⟩ := (hso.rows r' hr' _ nd2 hp).1 (by rw [hpart]; exact hpr)
    rw [← ha, ← hb]
    exact mem_sides.1 ⟨j, hj.symm⟩
  -- nothing moved
  have hz : changedRows c.nrow sk sk1 (s1.h.part r) = 0 := by
    rcases hcc hcv with h0 | h0
    · exact h0
    by_contra hne
    have hle : changedRows c.nrow sk sk1 (s1.h.part r) ≤ size c.nrow sk1.assign nd.zero + size c.nrow sk1.assign nd.one := by
      unfold changedRows size
      refine (Finset.card_le_card ?_).trans (Finset.card_union_le _ _)
      intro r' hr'
      simp only [Finset.mem_filter, Finset.mem_range, Finset.mem_union] at hr' ⊢
      obtain ⟨ha', hb', _⟩ := hr'
      rw [h9] at hb'
      rcases hrow r' ha' hb' with h | h
      · left; exact ⟨ha', by rw [← h7 r' ha' hb']; exact h⟩
      · right; exact ⟨ha', by rw [← h7 r' ha' hb']; exact h⟩
    have hpos : (0 : R) < (changedRows c.nrow sk sk1 (s1.h.part r) : R) := by
      exact_mod_cast Nat.pos_of_ne_zero hne
    have hden : (0 : R) < ((size c.nrow sk1.assign nd.zero + size c.nrow sk1.assign nd.one : Nat) : R) := by
      exact_mod_cast lt_of_lt_of_le (Nat.pos_of_ne_zero hne) hle
    exact absurd (h0.trans htol) (not_le.2 (div_pos hpos hden))
  have hsame : ∀ r', r' < c.nrow → s1.h.part r' = s1.h.part r → s2.h.assign r' = sk.assign r' := by
    intro r' hr' hpr
    rw [h7 r' hr' hpr]
    by_contra hne
    unfold changedRows at hz
    rw [Finset.card_eq_zero, Finset.filter_eq_empty_iff] at hz
    exact hz (Finset.mem_range.2 hr') ⟨by rw [h9]; exact hpr, hne⟩
  rcases h8 with ⟨_, h8⟩ | h8
  · exfalso
    subst h8
    have h11 := hsame r hr rfl
    rw [← hhome r hr] at h11
    rw [h11, ← hpart] at h4
    have h4' : s2.h.part r = nd2.side i := by rw [h4]; unfold Node.side; rw [ha, hb]
    exact hw2.key_not_child (by rw [hp]) ⟨_, nd2, i, ⟨hp, by simp⟩, h4'.symm⟩
  · obtain ⟨h8, livek, hwk⟩ := h8
    rw [h6, (h8.nodes _ nd i h3).2, h4]
    congr 1
    have h11 : ∀ r', r' < c.nrow → (s2.h.assign r' = nd.side i ↔ sk.assign r' = nd.side i) := by
      intro r' hr'
      by_cases hpr : s1.h.part r' = s1.h.part r
      · rw [hsame r' hr' hpr]
      · constructor
        · intro hh
          exfalso
          apply hpr
          rw [← hpart]
          exact (hso.rows r' hr' _ nd2 hp).2 ⟨i, by rw [hh]; unfold Node.side; rw [ha, hb]⟩
        · intro hh
          exfalso
          apply hpr
          have := ((Sound.of hwk h8).rows r' hr' _ nd h3).2 ⟨i, hh⟩
          rw [h9] at this
          exact this
    exact meanOf_congr fun r' hr' => (h11 r' hr').symm

/-- **C79, partial**, in runs: in every round of every run of x-means, for a partition `p` with sides `z` and
`o` and at least three rows whose number was not used for a partition before, the sizes are those of the sides,
the distances of the parent's score are the distances of the partition's rows to their mean, and the split is
taken back exactly if the criterion of the parent exceeds that of the sides changed as in
`C79_limit_child_score`.
`cd` are the distances of the rows to their sides: see `C79_recorded_distance` and `C79_converged_distance`.
Missing: the criterion of the sides, and reused partition numbers (C72). -/
theorem C79_runs_partial {R D : Type _} {n : Nat} [Field R] [LinearOrder R] [LinearOrder D] (c : Cfg R D n) (it : HInit R n)
    (hs : Sane c) (hn : 0 < n) (hmin : 2 ≤ c.minSize) (hmi : 1 ≤ c.maxIters)
    (hbig : MeansWithin c.nrow c.data c.dist c.big) (hit : Startable c it) (t : Nat) (hist : List Nat)
    (s s1 s2 : XSt R n) (h : Reached .x c it t hist s) (e1 : meanPhase c s = .ok s1)
    (sched : Nat → List Nat) (hc : ∀ i, Par.Complete (Partition.effThreads c.reqThreads c.nrow)
      (Kmeans.threadRows c.nrow c.reqThreads) (sched i)) (e2 : iterate .x c sched s1 = .ok s2)
    (val : D → ℝ) (dmin : ℝ) (cd : Nat → ℝ) (p z o : Nat) (hp : sides s2.h p = some (z, o)) (hfresh : p ∉ hist)
    (N nz no Wp Wc : ℝ) (hN : N = size c.nrow s2.h.part p) (hN3 : 3 ≤ N)
    (hnz : nz = size c.nrow s2.h.assign z) (hno : no = size c.nrow s2.h.assign o)
    (hWp : Wp = ∑ r ∈ (Finset.range c.nrow).filter (fun r => s2.h.part r = p),
      val (c.dist (c.data r) (meanOf c.nrow c.data s2.h.part p)))
    (hWc : Wc = ∑ r ∈ (Finset.range c.nrow).filter (fun r => s2.h.part r = p), cd r) :
    N = nz + no ∧
    (p ∈ bicRejected dmin c.nrow (fun r => val (partitionDist c s2.cl s2.h.part r)) cd s2.h ↔
      bicScore n [nz, no] Wc
          - (N / 2 * Real.log (2 * Real.pi) + N * n / 2 * Real.log (Wc / (N - 2)) + N / 2)
          + (2 * N * Real.log N - nz * Real.log nz - no * Real.log no) - (2 * n + 2) / 2 * Real.log N <
        bicScore n [N] Wp) := by
  obtain ⟨⟨live, hw⟩, hst, hpop, _, hmean⟩ := round_inv hs hn hmin hmi hbig hit h (by intro h; cases h) e1 hc e2
  unfold sides at hp
  obtain ⟨nd, hnd, hpe⟩ := Option.map_eq_some_iff.1 hp
  cases hpe
  have hso := Sound.of hw hst
  have hpk : p ∈ s2.h.keys := (mem_keys' hw).2 ⟨nd, hnd⟩
  have hrow : ∀ r, r < c.nrow → (s2.h.part r = p ↔ s2.h.assign r = nd.zero ∨ s2.h.assign r = nd.one) := by
    intro r hr
    rw [hso.rows r hr p nd hnd]
    constructor
    · rintro ⟨j, hj⟩; exact mem_sides.1 ⟨j, hj.symm⟩
    · intro h; obtain ⟨j, hj⟩ := mem_sides.2 h; exact ⟨j, hj.symm⟩
  have hzo := hso.sidesNe p nd hnd
  have hlen : ∀ i, (members c.nrow s2.h.assign i).length = size c.nrow s2.h.assign i := by
    intro i
    unfold members size
    rw [← List.toFinset_card_of_nodup (List.nodup_range.filter _)]
    congr 1
    ext r
    simp
  have hfil : (Finset.range c.nrow).filter (fun r => s2.h.part r = p) =
      (Finset.range c.nrow).filter (fun r => s2.h.assign r = nd.zero) ∪
        (Finset.range c.nrow).filter (fun r => s2.h.assign r = nd.one) := by
    ext r
    simp only [Finset.mem_filter, Finset.mem_range, Finset.mem_union]
    constructor
    · rintro ⟨hr, h⟩
      rcases (hrow r hr).1 h with h | h
      · exact Or.inl ⟨hr, h⟩
      · exact Or.inr ⟨hr, h⟩
    · rintro (⟨hr, h⟩ | ⟨hr, h⟩)
      · exact ⟨hr, (hrow r hr).2 (Or.inl h)⟩
      · exact ⟨hr, (hrow r hr).2 (Or.inr h)⟩
  have hdis : Disjoint ((Finset.range c.nrow).filter (fun r => s2.h.assign r = nd.zero))
      ((Finset.range c.nrow).filter (fun r => s2.h.assign r = nd.one)) := by
    rw [Finset.disjoint_left]
    intro r h1 h2
    rw [Finset.mem_filter] at h1 h2
    exact hzo (h1.2.symm.trans h2.2)
  have hsum : ∀ f : Nat → ℝ, ((members c.nrow s2.h.assign nd.zero ++ members c.nrow s2.h.assign nd.one).map f).sum =
      ∑ r ∈ (Finset.range c.nrow).filter (fun r => s2.h.part r = p), f r := by
    intro f
    rw [hfil, Finset.sum_union hdis, List.map_append, List.sum_append]
    have one : ∀ i, ((members c.nrow s2.h.assign i).map f).sum =
        ∑ r ∈ (Finset.range c.nrow).filter (fun r => s2.h.assign r = i), f r := by
      intro i
      unfold members
      rw [← List.sum_toFinset _ (List.nodup_range.filter _)]
      apply Finset.sum_congr _ fun _ _ => rfl
      ext r
      simp
    rw [one, one]
  have hNN : size c.nrow s2.h.part p = size c.nrow s2.h.assign nd.zero + size c.nrow s2.h.assign nd.one := by
    unfold size
    rw [hfil, Finset.card_union_of_disjoint hdis]
  have hN' : N = nz + no := by rw [hN, hnz, hno, hNN]; push_cast; rfl
  refine ⟨hN', ?_⟩
  have hcz : s2.h.counts.getD nd.zero 0 = ((members c.nrow s2.h.assign nd.zero).length : Int) := by
    rw [List.getD_eq_getElem?_getD, show s2.h.counts[nd.zero]? = _ from hst.counts _ (hso.sideLt p nd 0 hnd), hlen]; rfl
  have hco : s2.h.counts.getD nd.one 0 = ((members c.nrow s2.h.assign nd.one).length : Int) := by
    rw [List.getD_eq_getElem?_getD, show s2.h.counts[nd.one]? = _ from hst.counts _ (hso.sideLt p nd 1 hnd), hlen]; rfl
  have h3 : 3 ≤ (members c.nrow s2.h.assign nd.zero).length + (members c.nrow s2.h.assign nd.one).length := by
    rw [hlen, hlen, ← hNN]
    rw [hN] at hN3
    exact_mod_cast hN3
  have hpd : ((members c.nrow s2.h.assign nd.zero ++ members c.nrow s2.h.assign nd.one).map
      (fun r => val (partitionDist c s2.cl s2.h.part r))).sum = Wp := by
    rw [hsum, hWp]
    apply Finset.sum_congr rfl
    intro r hr
    rw [Finset.mem_filter] at hr
    unfold partitionDist
    rw [hr.2, hmean p hpk hfresh]
  have hps := C79_parent_score_partial dmin n (fun r => val (partitionDist c s2.cl s2.h.part r)) cd
    (members c.nrow s2.h.assign nd.zero) (members c.nrow s2.h.assign nd.one) (by omega)
  have hcs := C79_limit_child_score dmin n (fun r => val (partitionDist c s2.cl s2.h.part r)) cd
    (members c.nrow s2.h.assign nd.zero) (members c.nrow s2.h.assign nd.one) h3 N
    (by rw [hlen, hlen, hN', hnz, hno])
  rw [hpd, hlen, hlen, ← hnz, ← hno, ← hN'] at hps
  rw [hsum, ← hWc, hlen, hlen, ← hnz, ← hno] at hcs
  rw [← hps, ← hcs]
  unfold bicRejected
  rw [List.mem_filter, hnd]
  simp only [hpk, true_and, hcz, hco, hlen, decide_eq_true_eq]
  unfold SplitScore.rejects
  exact Iff.rfl

/-- `C79_converged_distance` in the first round of x-means on eight rows: row 1 is at distance 9/2 from the mean
11/2 of its side. -/
example (cd0 : Nat → WithTop ℚ) : ∃ s s1 s2 : XSt ℚ 1, start eight (.forgy 0 4) = .ok s ∧ meanPhase eight s = .ok s1 ∧
    iterate .x eight (fun _ => List.replicate 8 0) s1 = .ok s2 ∧
    ∃ cd, recordIters eight (fun _ => List.replicate 8 0) (List.range 3) s1.h cd0 = .ok (s2.h, cd) ∧
      cd 1 = eight.dist (fun _ => 1) (meanOf 8 eight.data s2.h.assign 1) := by
  obtain ⟨s, s1, s2, e0, e1, e2, _, h2, h3, h4, h5, _⟩ := eight_round .x
  refine ⟨s, s1, s2, e0, e1, e2, ?_⟩
  obtain ⟨cd, h6, h7⟩ := C79_converged_distance eight (.forgy 0 4) eight_sane (by decide) (by decide) (by decide)
    le_rfl (fun r _ a i => WithTop.coe_lt_top _) ⟨by decide, by decide⟩ 0 [] s s1 s2 (.start e0) e1 _ eight_complete e2 cd0
  obtain ⟨nd, hnd, hcv⟩ := Option.map_eq_some_iff.1 h3
  have hp : s2.h.part 1 = 0 := by
    have := congrArg (fun l => l[1]?) h5
    simpa using this
  have ha : s2.h.assign 1 = 1 := by
    have := congrArg (fun l => l[1]?) h4
    simpa using this
  refine ⟨cd, h6, ?_⟩
  have h8 := h7 1 nd (by decide) (by rw [hp]; exact hnd) hcv
  rw [ha] at h8
  exact h8

/-- `C79_recorded_distance` in the same round. -/
example (cd0 : Nat → WithTop ℚ) : ∃ s s1 s2 : XSt ℚ 1, start eight (.forgy 0 4) = .ok s ∧ meanPhase eight s = .ok s1 ∧
    iterate .x eight (fun _ => List.replicate 8 0) s1 = .ok s2 ∧
    ∃ cd, recordIters eight (fun _ => List.replicate 8 0) (List.range 3) s1.h cd0 = .ok (s2.h, cd) ∧
      ∃ m : Fin 2 → Fin 1 → ℚ, cd 1 = eight.dist (fun _ => 1) (m 0) ∧ cd 1 ≤ eight.dist (fun _ => 1) (m 1) := by
  obtain ⟨s, s1, s2, e0, e1, e2, _, h2, h3, h4, h5, _⟩ := eight_round .x
  refine ⟨s, s1, s2, e0, e1, e2, ?_⟩
  obtain ⟨cd, h6, h7⟩ := C79_recorded_distance eight (.forgy 0 4) eight_sane (by decide) (by decide) (by decide)
    (fun r _ a i => WithTop.coe_lt_top _) ⟨by decide, by decide⟩ 0 [] s s1 s2 (.start e0) e1 _ eight_complete e2 cd0
  obtain ⟨nd, hnd, hcv⟩ := Option.map_eq_some_iff.1 h2
  have hp : s2.h.part 1 = 0 := by
    have := congrArg (fun l => l[1]?) h5
    simpa using this
  have ha : s2.h.assign 1 = 1 := by
    have := congrArg (fun l => l[1]?) h4
    simpa using this
  refine ⟨cd, h6, ?_⟩
  obtain ⟨k, hk, sk, sk', ndk, i, _, _, _, h8, h9, h10, _⟩ := h7 1 nd (by decide) (by rw [hp]; exact hnd)
  rw [ha] at h8
  have hz : nd.zero = 1 ∧ nd.one = 2 := by simpa using hcv
  have hi : i = 0 := by
    unfold Node.side at h8
    split at h8
    · assumption
    · omega
  subst hi
  exact ⟨ndk.cl.means, h10, by rw [h10]; exact h9.1 1⟩

/-- `C79_runs_partial` in the same round: the partition has eight rows, and its sides four each. -/
example (cd : Nat → ℝ) (N nz no : ℝ) (hN : N = 8) (hz : nz = 4) (ho : no = 4) :
    ∃ s s1 s2 : XSt ℚ 1, start eight (.forgy 0 4) = .ok s ∧ meanPhase eight s = .ok s1 ∧
    iterate .x eight (fun _ => List.replicate 8 0) s1 = .ok s2 ∧
    ∀ Wp Wc : ℝ, Wp = ∑ r ∈ (Finset.range 8).filter (fun r => s2.h.part r = 0),
        (((eight.dist (eight.data r) (meanOf 8 eight.data s2.h.part 0)).untopD 0 : ℚ) : ℝ) →
      Wc = ∑ r ∈ (Finset.range 8).filter (fun r => s2.h.part r = 0), cd r →
      (0 ∈ bicRejected 0 8 (fun r => (((partitionDist eight s2.cl s2.h.part r).untopD 0 : ℚ) : ℝ)) cd s2.h ↔
        bicScore (1 : Nat) [nz, no] Wc
          - (N / 2 * Real.log (2 * Real.pi) + N * (1 : Nat) / 2 * Real.log (Wc / (N - 2)) + N / 2)
          + (2 * N * Real.log N - nz * Real.log nz - no * Real.log no) - (2 * (1 : Nat) + 2) / 2 * Real.log N <
        bicScore (1 : Nat) [N] Wp) := by
  obtain ⟨s, s1, s2, e0, e1, e2, _, h2, h3, h4, h5, _⟩ := eight_round .x
  refine ⟨s, s1, s2, e0, e1, e2, fun Wp Wc hWp hWc => ?_⟩
  have hp : ∀ r, r < 8 → s2.h.part r = (List.replicate 8 0).getD r 0 := by
    intro r hr
    rw [← h5]; simp [List.getD_eq_getElem?_getD, hr]
  have ha : ∀ r, r < 8 → s2.h.assign r = ([1, 1, 1, 1, 2, 2, 2, 2] : List Nat).getD r 0 := by
    intro r hr
    rw [← h4]; simp [List.getD_eq_getElem?_getD, hr]
  have hs : ∀ (f g : Nat → Nat) (i : Nat), (∀ r, r < 8 → f r = g r) → size 8 f i = size 8 g i := by
    intro f g i hfg
    unfold size
    congr 1
    apply Finset.filter_congr
    intro r hr
    rw [hfg r (Finset.mem_range.1 hr)]
  refine (C79_runs_partial eight (.forgy 0 4) eight_sane (by decide) (by decide) (by decide)
    (fun r _ a i => WithTop.coe_lt_top _) ⟨by decide, by decide⟩ 0 [] s s1 s2 (.start e0) e1 _ eight_complete e2 (fun d => ((d.untopD 0 : ℚ) : ℝ))
    0 cd 0 1 2 h2 (by simp) N nz no Wp Wc ?_ ?_ ?_ ?_ hWp hWc).2
  · rw [hN, show eight.nrow = 8 from rfl, hs _ _ 0 hp, show size 8 (fun r => (List.replicate 8 0).getD r 0) 0 = 8 by decide]
    norm_num
  · rw [hN]; norm_num
  · rw [hz, show eight.nrow = 8 from rfl, hs _ _ 1 ha,
      show size 8 (fun r => ([1, 1, 1, 1, 2, 2, 2, 2] : List Nat).getD r 0) 1 = 4 by decide]
    norm_num
  · rw [ho, show eight.nrow = 8 from rfl, hs _ _ 2 ha,
      show size 8 (fun r => ([1, 1, 1, 1, 2, 2, 2, 2] : List Nat).getD r 0) 2 = 4 by decide]
    norm_num

end Knor.Score
