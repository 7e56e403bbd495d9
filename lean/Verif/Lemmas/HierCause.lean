import Verif.Lemmas.Bisect

/-! Hierarchical clustering leaves large clusters unsplit only when there are many clusters. -/

namespace Knor.Hclust

open Knor Knor.Par Knor.Spec

variable {R D : Type _} {n : Nat}

section
variable [Field R] [LinearOrder R] [LinearOrder D] {c : Cfg R D n} {K M : Nat} {m0 m1 : Row R n}

/-- If the cluster `f` is large then there are many clusters. -/
def Caused (c : Cfg R D n) (K : Nat) (live : Finset Nat) (s : St R n) (f : Nat) : Prop :=
  c.minSize ≤ size c.nrow s.assign f → K + 3 + 2 * s.keys.length ≤ 2 * live.card

theorem loop_cause (hbig : MeansWithin c.nrow c.data c.dist c.big)
    (hN : 0 < c.nrow) (hT : 0 < c.reqThreads) (hlt : c.nrow < 4294967296)
    {sched : Nat → Nat → List Nat}
    (hc : ∀ t i, Complete (Partition.effThreads c.reqThreads c.nrow)
      (Kmeans.threadRows c.nrow c.reqThreads) (sched t i))
    (hK : c.halfK * 2 = K) (hmin : 2 ≤ c.minSize) (hit : 1 ≤ c.maxIters) :
    ∀ (fuel t : Nat) (d : Int) (live : Finset Nat) (s s' : St R n), Bd .h c K M t d live s → 0 ≤ d → Tree c m0 m1 s →
      (∀ f, (s.final f).isSome → Caused c K live s f) →
      loop c sched fuel t s = .ok (some s') →
      ∃ live', Wf M [] [] live' s' ∧ (∀ f, (s'.final f).isSome → Caused c K live' s' f) ∧
        ∀ p nd j, s'.hc p = some nd → Caused c K live' s' (nd.side j) := by
  intro fuel
  induction fuel with
  | zero => intro t d live s s' _ _ _ _ e; cases e
  | succ fuel ih =>
    intro t d live s s' h hd ht hca e
    obtain ⟨s1, e1, h1⟩ := iters_ok (c := c) hbig hN hT hlt (hc t) (List.range c.maxIters) s (by
      intro hh
      have := congrArg List.length hh
      rw [List.length_range] at this
      simp at this
      omega) h.wf h.ready
    have hk := shape_keys h1.hsize h1.shape
    have hw1 := h1.wf h.wf
    have hh := ht.halved hbig hN hT hlt (hc t) hit h.wf h.ready h1 e1
    have hcl := (round_twoMeans hbig hN hT hlt (hc t) hit h.wf h.ready ht.fresh e1).2.1
    have hca1 : ∀ f, (s.final f).isSome → Caused c K live s1 f := by
      intro f hf hm
      rw [hk]
      apply hca f hf
      have := congrArg Finset.card (hcl f hf)
      unfold size at hm ⊢
      unfold members at this
      omega
    unfold loop iterations at e
    simp only [e1] at e
    by_cases hcap : c.atCap s1 = true
    · rw [if_pos hcap] at e
      unfold Cfg.atCap at hcap
      simp only [decide_eq_true_eq] at hcap
      have hall : ∀ f, Caused c K live s1 f := by
        intro f _
        rw [hk]
        have h2 := h.ncl
        have h3 := h.start.sum
        have h4 := h1.ncl
        omega
      cases e
      exact ⟨live, hw1, fun f _ => hall f, fun p nd j _ => hall _⟩
    · rw [if_neg hcap] at e
      obtain ⟨s2, e2, ha2, _, live2, d2, _, _, _, ⟨q1, q2, q3⟩, hdn, hb⟩ := initSplits_ok hw1
        (by rw [hk]; exact h.start) hbig h1.settled
        (fun hm => h1.fin (h.fin hm)) (by rw [h1.ncl]; exact h.ncl) (by rw [hk]; exact h.q) hK hmin
        (by intro hm; cases hm) (by
          unfold Cfg.atCap at hcap
          simp only [decide_eq_true_eq] at hcap
          omega)
      have ht2 := hh.tree hw1 h1.settled e2
      have hca2 : ∀ f, (s2.final f).isSome → Caused c K live2 s2 f := by
        intro f hf hm
        rw [ha2] at hm
        rcases q3 f hf with k | k | k
        · have := hca1 f (by rw [← h1.final]; exact k) hm
          omega
        · omega
        · exact k hd
      simp only [e2] at e
      by_cases hk2 : s2.keys = []
      · rw [if_pos hk2] at e
        cases e
        refine ⟨live2, (hdn hk2).wf, hca2, fun p nd j hp => ?_⟩
        have hmem := (mem_keys' (hdn hk2).wf).2 ⟨nd, hp⟩
        rw [hk2] at hmem
        cases hmem
      · rw [if_neg hk2] at e
        exact ih (t + 1) d2 live2 s2 s' (hb hk2) (by omega) ht2 hca2 e

end

/-- In a run that ends normally with a large cluster, there are many clusters. -/
theorem run_cause [Field R] [LinearOrder R] [LinearOrder D] {c : Cfg R D n}
    (hbig : MeansWithin c.nrow c.data c.dist c.big)
    (hN : 0 < c.nrow) (hT : 0 < c.reqThreads) (hlt : c.nrow < 4294967296)
    (hk2 : 2 ≤ c.kmax) (hklt : c.kmax < 1073741824) (hmin : 2 ≤ c.minSize) (hmi : 1 ≤ c.maxIters)
    {it : HInit R n} (hit : Startable c it) {m0 m1 : Row R n} (hm : startCents c it = some (m0, m1))
    {sched : Nat → Nat → List Nat}
    (hc : ∀ t i, Complete (Partition.effThreads c.reqThreads c.nrow)
      (Kmeans.threadRows c.nrow c.reqThreads) (sched t i)) {fuel : Nat} {s : St R n}
    (e : run c it sched fuel = .ok (some s)) {ids : List Nat}
    (hids : ∀ i, i ∈ ids ↔ (s.final i).isSome) :
    ∀ f, (s.final f).isSome → c.minSize ≤ size c.nrow s.assign f → hclustFloor c.kmax + 3 ≤ 2 * ids.length := by
  have hsame : ∀ s0 : St R n, runHinit c it s0 = runHinit c (.given m0 m1) s0 := by
    cases it with
    | forgy i j => intro s0; cases hm; rfl
    | given a b => intro s0; cases hm; rfl
    | other => cases hm
  have hit' : Startable c (.given m0 m1) := by
    cases it with
    | forgy i j => cases hm; exact fun r hr => ⟨hbig.row r hr i hit.1, hbig.row r hr j hit.2⟩
    | given a b => cases hm; exact hit
    | other => cases hm
  obtain ⟨s0, e0, e1⟩ := init_given (c := c) hk2 hklt m0 m1
  obtain ⟨z1, z2, z3, z4, z5, z6⟩ := sizes (c := c) hk2 hklt
  unfold run at e
  simp only [e0, hsame, e1] at e
  split at e
  · cases e
  · cases e
  · rename_i s2 e2
    cases e
    obtain ⟨live, hw, hf, hs⟩ := loop_cause hbig hN hT hlt hc z1 hmin hmi fuel 0 0 _ _ s2
      (started_bd .h hN hk2 hklt m0 m1 hit') (le_refl _) (started_tree m0 m1) (by
        intro f hf
        simp [started] at hf) e2
    have hfin : ∀ f, (∃ p nd j, s2.hc p = some nd ∧ nd.side j = f ∧
        (completeFinal s2).final f = some (nd.cl.means j)) ∨
        ((∀ p nd j, s2.hc p = some nd → nd.side j ≠ f) ∧ (completeFinal s2).final f = s2.final f) := by
      intro f
      rcases completeFold s2 f s2.keys s2.final with ⟨p, nd, j, _, h2, h3, h4⟩ | ⟨h1, h2⟩
      · exact Or.inl ⟨p, nd, j, h2, h3, h4⟩
      · exact Or.inr ⟨fun p nd j hp => h1 p nd j ((mem_keys' hw).2 ⟨nd, hp⟩) hp, h2⟩
    have hcard : live.card ≤ ids.length + s2.keys.length := by
      have hsub : live ⊆ (ids ++ s2.keys).toFinset := by
        intro i hi
        rw [List.mem_toFinset, List.mem_append, hids, mem_keys' hw]
        rcases (hw.liveIff i).1 hi with h1 | ⟨p, nd, j, h1, h2⟩ | h1 | h1
        · exact Or.inr h1
        · left
          rcases hfin i with ⟨p', nd', j', _, _, k⟩ | ⟨k, _⟩
          · rw [k]; rfl
          · exact absurd h2 (k p nd j h1.1)
        · left
          rcases hfin i with ⟨p', nd', j', _, _, k⟩ | ⟨_, k⟩
          · rw [k]; rfl
          · rw [k]; exact h1
        · cases h1
      have h1 := Finset.card_le_card hsub
      have h2 := List.toFinset_card_le (ids ++ s2.keys)
      rw [List.length_append] at h2
      omega
    intro f hff hsz
    have hca : Caused c (hclustFloor c.kmax) live s2 f := by
      rcases hfin f with ⟨p, nd, j, h2, h3, _⟩ | ⟨_, h2⟩
      · rw [← h3]; exact hs p nd j h2
      · rw [h2] at hff; exact hf f hff
    have := hca hsz
    omega

end Knor.Hclust
