import Verif.Model.JobOrder
import Verif.Lemmas.DoubleDriver
import Verif.Lemmas.DistrDriver
import Verif.Lemmas.DistrNear

/-!
# The initialisation of a distributed job on doubles
-/

namespace Knor.Init

open Knor Knor.Spec Knor.Par Knor.Partition Knor.Distr Knor.NearLloyd Knor.Kmeans

variable {R S : Type _} {k n : Nat} [Zero R] [Add R] [Sub R] [Mul R] [Div R] [IntCast R] [NatCast R] [LT R] [LE R]
  {fin : R → Prop} {val : R → ℝ} {sqrt abs' : R → R}

/-! ### Reductions -/

/-- A reduction to which only rank `p` contributes is exact. -/
theorem eval_single (hI : IeeeDouble fin val sqrt abs') (f : Nat → R) {p : Nat} (hp : fin (f p)) :
    ∀ t : SumTree, t.ranks.Nodup → (∀ q ∈ t.ranks, q ≠ p → f q = 0) →
    fin (t.eval f) ∧ val (t.eval f) = if p ∈ t.ranks then val (f p) else 0 := by
  intro t
  induction t with
  | leaf q =>
    intro _ h
    simp only [SumTree.ranks, SumTree.eval, List.mem_singleton] at h ⊢
    by_cases hq : p = q
    · subst hq; exact ⟨hp, by rw [if_pos rfl]⟩
    · rw [if_neg hq, h q rfl fun h => hq h.symm]; exact hI.zero
  | node l r ihl ihr =>
    intro hnd h
    simp only [SumTree.ranks, SumTree.eval, List.mem_append] at h hnd ⊢
    rw [List.nodup_append] at hnd
    obtain ⟨n1, n2, n3⟩ := hnd
    obtain ⟨f1, v1⟩ := ihl n1 fun q hq => h q (Or.inl hq)
    obtain ⟨f2, v2⟩ := ihr n2 fun q hq => h q (Or.inr hq)
    have hsum : val (l.eval f) + val (r.eval f) = if p ∈ l.ranks ∨ p ∈ r.ranks then val (f p) else 0 := by
      rw [v1, v2]
      by_cases h1 : p ∈ l.ranks
      · have h2 : p ∉ r.ranks := fun h2 => n3 p h1 p h2 rfl
        simp [h1, h2]
      · by_cases h2 : p ∈ r.ranks <;> simp [h1, h2]
    have hdbl : IsDouble (val (l.eval f) + val (r.eval f)) := by
      rw [hsum]
      split
      · exact hI.double _ hp
      · exact isDouble_zero
    obtain ⟨a1, a2⟩ := hI.add _ _ f1 f2 (isDouble_le hdbl)
    exact ⟨a1, by rw [nearest_of_double a2 hdbl, hsum]⟩

omit [Sub R] [Mul R] [NatCast R] [LT R] [LE R] in
/-- Error of a reduction whose contributions are sums over the ranks' rows. -/
theorem ranks_near {u η M : ℝ} {K : Nat} (hR : Rounds fin val u η M K) {g np W : Nat} (hnp : 0 < np) {t : SumTree}
    (ht : t.ranks.Perm (List.range np)) (f : Nat → R) (x a : Nat → ℝ)
    (hloc : ∀ p, p < np → Near fin val u W (f p) (∑ r ∈ Finset.range (procNrow g np p), x (off g np p + r))
      (∑ r ∈ Finset.range (procNrow g np p), a (off g np p + r)))
    (hM : (1 + u) ^ (W + np) * ∑ r ∈ Finset.range g, a r ≤ M) :
    Near fin val u (W + (np - 1)) (t.eval f) (∑ r ∈ Finset.range g, x r) (∑ r ∈ Finset.range g, a r) := by
  have hlen : t.ranks.length = np := by rw [ht.length_eq, List.length_range]
  have e : ∀ z : Nat → ℝ, (t.ranks.map fun p => ∑ r ∈ Finset.range (procNrow g np p), z (off g np p + r)).sum =
      ∑ r ∈ Finset.range g, z r := by
    intro z
    rw [(ht.map _).sum_eq, ← sum_procs (g := g) hnp z, ← sum_map_range]
  have := (near_tree hR f _ _ t (fun p hp => hloc p (List.mem_range.1 (ht.mem_iff.1 hp))) (by
    rw [e, hlen]; exact hM)).1
  rw [e, e, hlen] at this
  exact this

/-! ### Forgy -/

/-- **Distributed Forgy on doubles.** -/
theorem forgyDistBy_near (hI : IeeeDouble fin val sqrt abs') (draw : S → Nat × S) (seed : S) {data : Nat → Row R n}
    {g np nt : Nat} (hnp : 0 < np) (hnt : 0 < nt) (hlt : g < 4294967296) (hd : ∀ s, (draw s).1 < g)
    (hrows : ∀ r, r < g → ∀ j, fin (data r j)) {tree : Fin k → Fin n → SumTree}
    (ht : ∀ c j, (tree c j).ranks.Perm (List.range np)) :
    ∃ cs c0, forgyDistBy (fun c j x => (tree c j).eval x) draw seed data g np nt (fun _ => Clusters.empty) = .ok cs ∧
      (∀ p, p < np → (cs p).means = c0) ∧
      ∀ c, ∃ r, r < g ∧ (outputs draw k seed)[c.val]? = some r ∧
        ∀ j, fin (c0 c j) ∧ val (c0 c j) = val (data r j) := by
  have hloop := fun p hp => forgyLoopDist_spec (p := p) draw (data := data) (g := g) (np := np) hp hnt hlt hd
    (List.finRange k) (List.nodup_finRange k) seed Clusters.empty
  obtain ⟨loc, e, hl⟩ := eachRank_ok (np := np) (d := fun _ => (Clusters.empty : Clusters R k n))
    (f := fun p => forgyLoopDist draw data g np p nt (List.finRange k) seed Clusters.empty) fun p hp => by
      obtain ⟨c', h, _⟩ := hloop p hp
      exact ⟨c', h⟩
  have hmeans : ∀ p, p < np → ∀ c : Fin k, (loc p).means c =
      if isLocal g np p (draw (skip draw c.val seed)).1 then data (draw (skip draw c.val seed)).1 else fun _ => 0 := by
    intro p hp c
    obtain ⟨c', h, h1, _⟩ := hloop p hp
    have := hl p hp
    rw [h, Except.ok.injEq] at this
    rw [← this, h1 c.val c (by
      rw [List.getElem?_eq_getElem (by simp)]; simp)]
    rfl
  refine ⟨_, fun c j => (tree c j).eval fun q => (loc q).means c j, by unfold forgyDistBy; rw [e], fun p _ => rfl,
    fun c => ?_⟩
  have hr := hd (skip draw c.val seed)
  refine ⟨_, hr, outputs_get draw k seed c.val c.isLt, fun j => ?_⟩
  obtain ⟨p, l, hp, _, _, hloc, _, hother⟩ := owner_spec (g := g) hnp hr (by omega)
  have hown : (loc p).means c j = data (draw (skip draw c.val seed)).1 j := by rw [hmeans p hp c, if_pos hloc]
  obtain ⟨h1, h2⟩ := eval_single hI (fun q => (loc q).means c j) (p := p) (by
      rw [hown]; exact hrows _ hr j) (tree c j)
    ((ht c j).symm.nodup List.nodup_range) (fun q hq hne => by
      have hq := List.mem_range.1 ((ht c j).mem_iff.1 hq)
      rw [hmeans q hq c, hother q hq hne]
      rfl)
  rw [if_pos ((ht c j).mem_iff.2 (List.mem_range.2 hp))] at h2
  exact ⟨h1, by rw [h2, hown]⟩

/-! ### Random partition -/

omit [Zero R] [Add R] [Sub R] [Mul R] [NatCast R] [LT R] [LE R] in
theorem finMean_incomplete (s : Clusters R k n) (c : Fin k) (h : s.complete c = false) {N : Nat} (hN : s.num c = N) :
    s.finMean c = fun j => if 1 < N then s.means c j / ((N : Int) : R) else s.means c j := by
  funext j
  unfold Clusters.finMean
  rw [h, hN]
  simp only [Bool.false_eq_true, if_false]
  by_cases h : 1 < N
  · rw [if_pos h, if_pos (by exact_mod_cast h)]
  · rw [if_neg h, if_neg (by exact_mod_cast h)]

/-- **Distributed random partition on doubles.** -/
theorem randomDistBy_near (hI : IeeeDouble fin val sqrt abs') (draw : S → Fin k × S) (seed : S) {data : Nat → Row R n}
    {g np nt : Nat} (hnp : 0 < np) (hg : np ≤ g) (hnt : 0 < nt) (hlt : g < 4294967296)
    (hrows : ∀ r, r < g → InBox fin val (2 ^ (400 : Int)) (data r)) {tree : Fin k → Fin n → SumTree}
    (ht : ∀ c j, (tree c j).ranks.Perm (List.range np)) :
    ∃ st c0 A, randomDistBy (fun c j x => (tree c j).eval x) draw seed data g np nt
        (fun _ => (Clusters.empty, fun _ => none)) = .ok st ∧
      (∀ p, p < np → (st p).1.means = c0) ∧
      (∀ r, r < g → ∃ c, A r = some c ∧ (outputs draw g seed)[r]? = some c) ∧
      (∀ c, InBox fin val (2 ^ (402 : Int)) (c0 c)) ∧
      ∀ c j, |val (c0 c j) - memberMean g (fun r j => val (data r j)) A c j| ≤
        ((g / np + g % np + np : Nat) * 2 ^ (-52 : Int)) * memberMean g (fun r j => |val (data r j)|) A c j +
          2 ^ (-1075 : Int) := by
  set ch : Nat → Fin k := fun r => (draw (skip draw r seed)).1 with hch
  set A : Nat → Option (Fin k) := fun r => some (ch r) with hA
  have hpl : ∀ p, p < np → procNrow g np p < 4294967296 := fun p hp => lt_of_le_of_lt (procNrow_le hp) hlt
  have hW : ∀ p, procNrow g np p ≤ g / np + g % np := fun p => by unfold procNrow; split <;> omega
  have hloop : ∀ p, p < np → ∃ a', randomLoop (emuNext draw) (procData data g np p) (procNrow g np p) nt
      (List.range (procNrow g np p)) (emuCreate draw seed (g / np * p)) (Clusters.empty : Clusters R k n)
      (fun _ => none) = .ok ((List.range (procNrow g np p)).foldl
        (fun s r => s.addMember (procData data g np p r) (ch (off g np p + r))) Clusters.empty, a') := by
    intro p hp
    obtain ⟨a', e, _⟩ := Driver.randomLoop_any (data := procData data g np p) (emuNext draw) hnt (hpl p hp)
      (emuCreate draw seed (g / np * p)) (procNrow g np p) 0 Clusters.empty (fun _ => none) (by omega)
    refine ⟨a', ?_⟩
    rw [List.range_eq_range', show emuCreate draw seed (g / np * p) = skip (emuNext draw) 0
      (emuCreate draw seed (g / np * p)) from rfl, e]
    congr 4
    funext s r
    congr 1
    show (draw (skip draw r (skip draw (g / np * p) seed))).1 = _
    rw [skip_add, Nat.mul_comm]
    rfl
  obtain ⟨loc, e, hl⟩ := eachRank_ok (np := np)
    (d := fun _ => ((Clusters.empty : Clusters R k n), fun _ => none))
    (f := fun p => randomLoop (emuNext draw) (procData data g np p) (procNrow g np p) nt
      (List.range (procNrow g np p)) (emuCreate draw seed (g / np * p)) Clusters.empty (fun _ => none)) fun p hp => by
      obtain ⟨a', h⟩ := hloop p hp
      exact ⟨_, h⟩
  have hcl : ∀ p, p < np → (loc p).1 = (List.range (procNrow g np p)).foldl
        (fun s r => s.addMember (procData data g np p r) (ch (off g np p + r))) Clusters.empty := by
    intro p hp
    obtain ⟨a', h⟩ := hloop p hp
    have := hl p hp
    rw [h, Except.ok.injEq] at this
    rw [← this]
  have hany := fun p => Clusters.foldl_addMember_any (procData data g np p) (fun r => ch (off g np p + r))
    (List.range (procNrow g np p)) (Clusters.empty : Clusters R k n)
  have hnum : ∀ c, allreduce np (fun q => (loc q).1.num c) = (Spec.count g A c : Int) := by
    intro c
    rw [allreduce_eq, count_eq, ← sum_procs (g := g) hnp]
    apply Finset.sum_congr rfl
    intro p hp
    rw [hcl p (Finset.mem_range.1 hp), (hany p).2.2, Driver.listSum_range]
    refine (zero_add _).trans (Finset.sum_congr rfl fun r _ => ?_)
    simp [hA]
  -- the reduced sums
  set W := g / np + g % np with hWdef
  have hWg : W + np ≤ g + 1 := by
    have h3 := Nat.div_add_mod g np
    have h4 : 1 ≤ g / np := Nat.div_pos hg hnp
    rw [hWdef]
    generalize g / np = q at *
    generalize g % np = r at *
    obtain ⟨q', rfl⟩ := Nat.exists_eq_add_of_le h4
    obtain ⟨T', rfl⟩ := Nat.exists_eq_add_of_le (show 1 ≤ np by omega)
    have : (1 + T') * (1 + q') = 1 + T' + q' + T' * q' := by ring
    rw [this] at h3
    generalize T' * q' = z at *
    omega
  have hle : ∀ c j, memberSum g (fun r j => |val (data r j)|) A c j ≤ g * 2 ^ (400 : Int) := fun c j =>
    (memberSum_abs_le hrows A c j).trans
      (mul_le_mul_of_nonneg_right (by exact_mod_cast Kmeans.count_le A c) (p_pos _).le)
  have hM : ∀ (m : Nat) (b : ℝ) c j, m ≤ g + 1 → 0 ≤ b → b ≤ memberSum g (fun r j => |val (data r j)|) A c j →
      (1 + 2 ^ (-53 : Int)) ^ m * b ≤ maxDouble := by
    intro m b c j hm hb0 hb
    have g1 := mul_le_mul_of_nonneg_right (nat_p hlt.le) (p_pos 400).le
    have g2 := mul_le_mul (pow2 (m := m) (by omega)) ((hb.trans (hle c j)).trans g1) hb0 (p_pos _).le
    refine g2.trans ?_
    rw [p_mul, p_mul]
    exact (p_le (by norm_num)).trans p_le_max
  have hsum : ∀ (f : Nat → ℝ) c p, ((((List.range (procNrow g np p)).filter fun r => ch (off g np p + r) = c)).map
      fun r => f (off g np p + r)).sum =
      ∑ r ∈ Finset.range (procNrow g np p), if A (off g np p + r) = some c then f (off g np p + r) else 0 := by
    intro f c p
    rw [sum_filter_map, Driver.listSum_range]
    refine Finset.sum_congr rfl fun r _ => ?_
    simp [hA]
  have hnear : ∀ c j, Near fin val (2 ^ (-53 : Int)) (W + (np - 1))
      ((tree c j).eval fun q => (loc q).1.means c j) (memberSum g (fun r j => val (data r j)) A c j)
      (memberSum g (fun r j => |val (data r j)|) A c j) := by
    intro c j
    rw [memberSum_eq, memberSum_eq]
    refine ranks_near hI.rounds.toRounds hnp (ht c j) _ (fun r => if A r = some c then val (data r j) else 0)
      (fun r => if A r = some c then |val (data r j)| else 0) (fun p hp => ?_) ?_
    · rw [hcl p hp, (hany p).2.1]
      have hlen : ((List.range (procNrow g np p)).filter fun r => ch (off g np p + r) = c).length ≤ W :=
        (List.length_filter_le _ _).trans ((List.length_range).le.trans (hW p))
      have := near_seq hI.rounds.toRounds (fun r => procData data g np p r j) (fun r => val (data (off g np p + r) j))
        (fun r => |val (data (off g np p + r) j)|) (m0 := 0)
        ((List.range (procNrow g np p)).filter fun r => ch (off g np p + r) = c) (fun r hr =>
          ⟨(hrows _ (off_lt hp (List.mem_range.1 (List.mem_filter.1 hr).1)) j).1, le_rfl, by
            rw [pow_zero, sub_self, zero_mul]
            refine le_of_eq ?_
            rw [abs_eq_zero, sub_eq_zero]
            rfl⟩) (by
          refine hM _ _ c j (by omega) ?_ ?_
          · exact List.sum_nonneg fun z hz => by
              obtain ⟨_, _, rfl⟩ := List.mem_map.1 hz
              exact abs_nonneg _
          · rw [hsum fun r => |val (data r j)|, memberSum_eq, ← sum_procs (g := g) hnp]
            exact Finset.single_le_sum (f := fun p => ∑ r ∈ Finset.range (procNrow g np p),
              if A (off g np p + r) = some c then |val (data (off g np p + r) j)| else 0)
              (fun q _ => Finset.sum_nonneg fun r _ => by split <;> simp) (Finset.mem_range.2 hp))
      rw [hsum fun r => val (data r j), hsum fun r => |val (data r j)|] at this
      exact this.mono (p_pos _).le (by omega)
    · have := hM (W + np) (memberSum g (fun r j => |val (data r j)|) A c j) c j (by omega) (Finset.sum_nonneg fun _ _ => abs_nonneg _) le_rfl
      rw [memberSum_eq] at this
      exact this
  set c0 : Fin k → Row R n := fun c j => if 1 < Spec.count g A c then
    ((tree c j).eval fun q => (loc q).1.means c j) / ((Spec.count g A c : Int) : R)
    else (tree c j).eval fun q => (loc q).1.means c j with hc0
  have hmean : ∀ c j, fin (c0 c j) ∧ |val (c0 c j) - memberMean g (fun r j => val (data r j)) A c j| ≤
      ((1 + 2 ^ (-53 : Int)) ^ (W + (np - 1) + 1) - 1) * memberMean g (fun r j => |val (data r j)|) A c j +
        2 ^ (-1075 : Int) := fun c j =>
    Driver.finMean_near hI.rounds.toRounds (hlt.le.trans (by norm_num)) (hnear c j)
      (hM _ _ c j (by omega) (Finset.sum_nonneg fun _ _ => abs_nonneg _) le_rfl) rfl
  rw [show W + (np - 1) + 1 = W + np by omega] at hmean
  refine ⟨_, c0, A, by unfold randomDistBy; rw [e], fun p hp => ?_, fun r hr => ⟨_, rfl, outputs_get draw g seed r hr⟩,
    fun c j => ⟨(hmean c j).1, ?_⟩, fun c j => ?_⟩
  · funext c j
    dsimp only
    rw [Clusters.finalizeAll_means]
    rw [finMean_incomplete (((loc p).1.setMeans fun c j => (tree c j).eval fun q => (loc q).1.means c j).setNum
      fun c => allreduce np fun q => (loc q).1.num c) c
      (show (loc p).1.complete c = false by rw [hcl p hp, (hany p).1]; rfl) (N := Spec.count g A c) (hnum c)]
    rfl
  · refine Driver.mean_box (p_pos 400).le (by positivity) hrows (hmean c j).2 ?_
    have g1 := mul_le_mul_of_nonneg_right (pow2 (m := W + np) (by omega)) (p_pos 400).le
    have g2 : (2 : ℝ) ^ (-1075 : Int) ≤ 2 ^ (401 : Int) := p_le (by norm_num)
    refine (add_le_add g1 g2).trans (le_of_eq ?_)
    rw [p_mul, show (1 : Int) + 400 = 401 by norm_num, show (402 : Int) = 1 + 401 by norm_num,
      zpow_add₀ (by norm_num) 1 401, zpow_one]
    ring
  · exact (hmean c j).2.trans (add_le_add (mul_le_mul_of_nonneg_right (pow_rounds (m := W + np) (by omega)).1
      (memberMean_nonneg g _ _ c j)) le_rfl)

end Knor.Init
