import Mathlib.Data.Finset.Card
import Verif.Lemmas.HclustIter
import Verif.Props.IdGen

/-! Splitting clusters keeps the invariant. -/

namespace Knor.Hclust

open Knor Knor.Spec

variable {R D : Type _} {n : Nat}

/-! ### Moving ids between roles -/

/-- A partition is about to be removed: its sides become orphans. -/
theorem Wf.kill {M : Nat} {dn : List Nat} {live : Finset Nat} {s : St R n} (h : Wf M dn [] live s)
    {p : Nat} {nd : Node R n} (hp : Open dn s p nd) : Wf M (p :: dn) [nd.zero, nd.one] live s := by
  have hopen : ∀ q nd', Open (p :: dn) s q nd' → Open dn s q nd' ∧ q ≠ p := by
    rintro q nd' ⟨h1, h2⟩
    rw [List.mem_cons, not_or] at h2
    exact ⟨⟨h1, h2.2⟩, h2.1⟩
  have hchild : ∀ i, Child (p :: dn) s i → Child dn s i := by
    rintro i ⟨q, nd', j, h1, h2⟩
    exact ⟨q, nd', j, (hopen q nd' h1).1, h2⟩
  refine ⟨h.lenA, h.lenC, h.hsz, h.keyLt, ?_, fun q nd' hq => h.keyAct q nd' (hopen q nd' hq).1,
    fun q nd' j hq => h.sideAct q nd' j (hopen q nd' hq).1,
    fun q nd' hq => h.sidesNe q nd' (hopen q nd' hq).1,
    fun q nd' j hq => h.sideNone q nd' j (hopen q nd' hq).1,
    fun q q' nd1 nd2 j j' h1 h2 => h.uniq q q' nd1 nd2 j j' (hopen q nd1 h1).1 (hopen q' nd2 h2).1,
    h.finInact, h.finNone, fun f hf hc => h.finChild f hf (hchild f hc), ?_, ?_, h.nodup, h.disj,
    h.all, h.maxLt, h.actLive⟩
  · intro q hq
    rcases List.mem_cons.1 hq with rfl | hq
    · refine ⟨⟨nd, hp.1⟩, fun hc => h.key_not_child hp.1 (hchild _ hc), ?_⟩
      cases hf : s.final q with
      | none => rfl
      | some v =>
        have := h.finNone q (by rw [hf]; rfl)
        rw [hp.1] at this; cases this
    · obtain ⟨h1, h2, h3⟩ := h.dead q hq
      exact ⟨h1, fun hc => h2 (hchild _ hc), h3⟩
  · intro i hi
    have hi' : ∃ j, nd.side j = i := by
      rw [mem_sides]
      simpa using hi
    obtain ⟨j, rfl⟩ := hi'
    refine ⟨h.sideAct p nd j hp, h.sideNone p nd j hp, ?_, ?_⟩
    · rintro ⟨q, nd', j', h1, h2⟩
      exact (hopen q nd' h1).2 (h.uniq q p nd' nd j' j (hopen q nd' h1).1 hp h2)
    · cases hf : s.final (nd.side j) with
      | none => rfl
      | some v => exact (h.finChild _ (by rw [hf]; rfl) ⟨p, nd, j, hp, rfl⟩).elim
  · intro i
    rw [h.liveIff i]
    constructor
    · rintro (h1 | ⟨q, nd', j, h1, h2⟩ | h1 | h1)
      · exact Or.inl h1
      · by_cases hqp : q = p
        · subst hqp
          have : nd' = nd := Option.some.inj (h1.1.symm.trans hp.1)
          subst this
          refine Or.inr (Or.inr (Or.inr ?_))
          have := mem_sides.1 ⟨j, h2⟩
          simpa using this
        · exact Or.inr (Or.inl ⟨q, nd', j, ⟨h1.1, by simp [hqp, h1.2]⟩, h2⟩)
      · exact Or.inr (Or.inr (Or.inl h1))
      · cases h1
    · rintro (h1 | h1 | h1 | h1)
      · exact Or.inl h1
      · exact Or.inr (Or.inl (hchild i h1))
      · exact Or.inr (Or.inr (Or.inl h1))
      · have : i = nd.zero ∨ i = nd.one := by simpa using h1
        obtain ⟨j, hj⟩ := mem_sides.2 this
        exact Or.inr (Or.inl ⟨p, nd, j, hp, hj⟩)

theorem setFlag_lt {g : Bool} {l : List Bool} {i : Nat} {b : Bool} (hi : i < l.length) :
    setFlag g l i b = .ok (l.set i b) := by
  unfold setFlag VMap.flagsCheckSet VMap.flagsSet
  rw [if_neg (c := i > l.length) (by omega), if_pos hi]
  simp

theorem active_set {M : Nat} {dn orph : List Nat} {live : Finset Nat} {s : St R n}
    (h : Wf M dn orph live s) {i : Nat} (hi : i < M) (b : Bool) :
    setFlag s.grow s.active i b = .ok (s.active.set i b) :=
  setFlag_lt (by rw [h.lenA]; exact hi)

/-- An orphan becomes a final cluster. -/
theorem Wf.finish {M : Nat} {dn orph : List Nat} {live : Finset Nat} {s : St R n} {i : Nat}
    (h : Wf M dn (i :: orph) live s) (hi : i ∉ orph) (v : Row R n) :
    Wf M dn orph live { s with
      active := s.active.set i false, final := Function.update s.final i (some v) } := by
  obtain ⟨o1, o2, o3, o4⟩ := h.orphOk i (by simp)
  have hiM : i < s.active.length := by
    by_contra hc
    rw [List.getElem?_eq_none (by omega)] at o1
    cases o1
  have hact : ∀ q, q ≠ i → (s.active.set i false)[q]? = s.active[q]? := fun q hq =>
    List.getElem?_set_ne fun e => hq e.symm
  have hkne : ∀ q nd, s.hc q = some nd → q ≠ i := by
    rintro q nd hq rfl
    rw [o2] at hq; cases hq
  have hsne : ∀ q nd j, Open dn s q nd → nd.side j ≠ i := fun q nd j hq e => o3 ⟨q, nd, j, hq, e⟩
  have hfin : ∀ f, ((Function.update s.final i (some v)) f).isSome → f = i ∨ (s.final f).isSome := by
    intro f hf
    by_cases hfi : f = i
    · exact Or.inl hfi
    · rw [Function.update_of_ne hfi] at hf; exact Or.inr hf
  refine ⟨by simp [h.lenA], h.lenC, h.hsz, h.keyLt, ?_, ?_, ?_, h.sidesNe, h.sideNone, h.uniq, ?_, ?_,
    ?_, ?_, ?_, h.nodup, h.disj, h.all, h.maxLt, ?_⟩
  · intro q hq
    obtain ⟨⟨nd, h1⟩, h2, h3⟩ := h.dead q hq
    exact ⟨⟨nd, h1⟩, h2, by
      show Function.update s.final i _ q = none
      rw [Function.update_of_ne (hkne q nd h1)]; exact h3⟩
  · intro q nd hq
    show (s.active.set i false)[q]? = _
    rw [hact q (hkne q nd hq.1)]; exact h.keyAct q nd hq
  · intro q nd j hq
    show (s.active.set i false)[_]? = _
    rw [hact _ (hsne q nd j hq)]; exact h.sideAct q nd j hq
  · intro f hf
    show (s.active.set i false)[_]? = _
    by_cases hfi : f = i
    · subst hfi; rw [List.getElem?_set_self hiM]
    · rw [hact _ hfi]
      rcases hfin f hf with h1 | h1
      · exact absurd h1 hfi
      · exact h.finInact f h1
  · intro f hf
    rcases hfin f hf with h1 | h1
    · rw [h1]; exact o2
    · exact h.finNone f h1
  · intro f hf
    rcases hfin f hf with h1 | h1
    · rw [h1]; exact o3
    · exact h.finChild f h1
  · intro q hq
    have hqi : q ≠ i := by rintro rfl; exact hi hq
    obtain ⟨p1, p2, p3, p4⟩ := h.orphOk q (List.mem_cons_of_mem _ hq)
    exact ⟨by
      show (s.active.set i false)[_]? = _
      rw [hact _ hqi]; exact p1, p2, p3, by
      show Function.update s.final i _ q = none
      rw [Function.update_of_ne hqi]; exact p4⟩
  · intro q
    rw [h.liveIff q]
    show _ ↔ (∃ nd, s.hc q = some nd) ∨ Child dn s q ∨ (Function.update s.final i (some v) q).isSome ∨ _
    by_cases hqi : q = i
    · subst hqi
      simp
    · rw [Function.update_of_ne hqi, List.mem_cons]
      constructor
      · rintro (h1 | h1 | h1 | h1 | h1)
        · exact Or.inl h1
        · exact Or.inr (Or.inl h1)
        · exact Or.inr (Or.inr (Or.inl h1))
        · exact absurd h1 hqi
        · exact Or.inr (Or.inr (Or.inr h1))
      · rintro (h1 | h1 | h1 | h1)
        · exact Or.inl h1
        · exact Or.inr (Or.inl h1)
        · exact Or.inr (Or.inr (Or.inl h1))
        · exact Or.inr (Or.inr (Or.inr (Or.inr h1)))
  · intro q hq
    change (s.active.set i false)[q]? = some true at hq
    by_cases hqi : q = i
    · subst hqi; rw [List.getElem?_set_self hiM] at hq; cases hq
    · rw [hact q hqi] at hq; exact h.actLive q hq

/-! ### New ids -/

/-- The two ids of a split are new and the generator's invariant holds again. -/
theorem gen_split {M : Nat} {live : Finset Nat} {g : IdGen.Gen} (hM : M < 4294967296)
    (nodup : g.recycler.Nodup) (disj : ∀ i, i ∈ g.recycler → i ∉ live)
    (all : ∀ i, i ≤ g.maxId ↔ i ∈ live ∨ i ∈ g.recycler) (maxLt : g.maxId < M)
    (hcard : live.card + 2 ≤ M) :
    g.split.1.1 ∉ live ∧ g.split.1.2 ∉ live ∧ g.split.1.1 ≠ g.split.1.2 ∧
      g.split.2.recycler.Nodup ∧
      (∀ i, i ∈ g.split.2.recycler → i ∉ insert g.split.1.1 (insert g.split.1.2 live)) ∧
      (∀ i, i ≤ g.split.2.maxId ↔
        i ∈ insert g.split.1.1 (insert g.split.1.2 live) ∨ i ∈ g.split.2.recycler) ∧
      g.split.2.maxId < M ∧ g.split.2.maxId + 1 ≤ max (g.maxId + 1) (live.card + 2) := by
  have key : ∀ (g : IdGen.Gen) (live : Finset Nat), g.recycler.Nodup →
      (∀ i, i ∈ g.recycler → i ∉ live) → (∀ i, i ≤ g.maxId ↔ i ∈ live ∨ i ∈ g.recycler) →
      g.maxId < M → live.card + 1 ≤ M →
      g.next.1 ∉ live ∧ g.next.2.recycler.Nodup ∧
      (∀ i, i ∈ g.next.2.recycler → i ∉ insert g.next.1 live) ∧
      (∀ i, i ≤ g.next.2.maxId ↔ i ∈ insert g.next.1 live ∨ i ∈ g.next.2.recycler) ∧
      g.next.2.maxId < M ∧ g.next.2.maxId + 1 ≤ max (g.maxId + 1) (live.card + 1) := by
    intro g live nodup disj all maxLt hcard
    obtain ⟨a1, _, a3, a4, a5⟩ := IdGen.Inv.next (m := g.maxId) (Nat.le_refl _) nodup disj all (by omega)
    refine ⟨a1, a3, a4, a5, ?_⟩
    cases hr : g.recycler with
    | cons x l =>
      have : g.next.2.maxId = g.maxId := by unfold IdGen.Gen.next; rw [hr]
      omega
    | nil =>
      have hmx : g.next.2.recycler = [] := by unfold IdGen.Gen.next; rw [hr]
      rw [hmx] at a5
      have hset : insert g.next.1 live = Finset.range (g.next.2.maxId + 1) := by
        ext i
        rw [Finset.mem_range]
        have := a5 i
        simp only [List.not_mem_nil, or_false] at this
        rw [← this]
        omega
      have h1 := congrArg Finset.card hset
      rw [Finset.card_range, Finset.card_insert_of_notMem a1] at h1
      omega
  obtain ⟨a1, a2, a3, a4, a5, a6⟩ := key g live nodup disj all maxLt (by omega)
  obtain ⟨b1, b2, b3, b4, b5, b6⟩ := key g.next.2 _ a2 a3 a4 a5
    (by rw [Finset.card_insert_of_notMem a1]; omega)
  rw [Finset.mem_insert, not_or] at b1
  refine ⟨a1, b1.2, fun e => b1.1 e.symm, b2, ?_, ?_, b5, by
    rw [Finset.card_insert_of_notMem a1] at b6
    show g.next.2.next.2.maxId + 1 ≤ _
    omega⟩
  · intro i hi
    rw [Finset.insert_comm]; exact b3 i hi
  · intro i
    rw [Finset.insert_comm]; exact b4 i

/-- The state after an orphan `i` has become a partition with new sides. -/
def spawned (c : Cfg R D n) [Zero R] (s : St R n) (i x y : Nat) : St R n :=
  let sp := s.gen.split
  { s with
    hc := Function.update s.hc i (some
      { cl := ((Clusters.empty).setMean (c.data x) 0).setMean (c.data y) 1
        zero := sp.1.1, one := sp.1.2, conv := false })
    hsize := max s.hsize (i + 1)
    gen := sp.2
    active := (s.active.set sp.1.1 true).set sp.1.2 true
    ncl := s.ncl + (if sp.1.1 > 0 then 1 else 0) + (if sp.1.2 > 0 then 1 else 0) }

theorem spawnOne_ok [Zero R] {c : Cfg R D n} {M : Nat} {dn orph : List Nat} {live : Finset Nat}
    {s : St R n} {i x y : Nat} (hM : M < 4294967296) (h : Wf M dn (i :: orph) live s) (hi : i ∉ orph)
    (hcard : live.card + 2 ≤ M) :
    spawnOne c i (some x) (some y) s = .ok (spawned c s i x y) ∧
    Wf M dn orph (insert s.gen.split.1.1 (insert s.gen.split.1.2 live)) (spawned c s i x y) ∧
    s.gen.split.1.1 ∉ live ∧ s.gen.split.1.2 ∉ live ∧ s.gen.split.1.1 ≠ s.gen.split.1.2 := by
  obtain ⟨g1, g2, g3, g4, g5, g6, g7, _⟩ := gen_split hM h.nodup h.disj h.all h.maxLt hcard
  obtain ⟨o1, o2, o3, o4⟩ := h.orphOk i (by simp)
  have hiL : i ∈ live := (h.liveIff i).2 (Or.inr (Or.inr (Or.inr (by simp))))
  have ha : s.gen.split.1.1 < M := by
    have := (g6 s.gen.split.1.1).2 (Or.inl (by simp)); omega
  have hb : s.gen.split.1.2 < M := by
    have := (g6 s.gen.split.1.2).2 (Or.inl (by simp)); omega
  set a := s.gen.split.1.1 with ea
  set b := s.gen.split.1.2 with eb
  refine ⟨?_, ?_, g1, g2, g3⟩
  · unfold spawnOne
    simp only
    unfold St.activate St.putNode
    simp only
    rw [← ea, ← eb, active_set h ha]
    simp only
    rw [setFlag_lt (by rw [List.length_set, h.lenA]; exact hb)]
    simp only [Except.ok.injEq]
    unfold spawned
    simp only [← ea, ← eb]
    congr 1
    split <;> split <;> omega
  · have hact : ∀ q, q ∈ live → ((s.active.set a true).set b true)[q]? = s.active[q]? := by
      intro q hq
      rw [List.getElem?_set_ne (by rintro rfl; exact g2 hq),
        List.getElem?_set_ne (by rintro rfl; exact g1 hq)]
    have hactA : ((s.active.set a true).set b true)[a]? = some true := by
      rw [List.getElem?_set_ne fun e => g3 e.symm, List.getElem?_set_self (by rw [h.lenA]; exact ha)]
    have hactB : ((s.active.set a true).set b true)[b]? = some true := by
      rw [List.getElem?_set_self (by rw [List.length_set, h.lenA]; exact hb)]
    let nd : Node R n := { cl := ((Clusters.empty).setMean (c.data x) 0).setMean (c.data y) 1
                           zero := a, one := b, conv := false }
    have hhc : (spawned c s i x y).hc = Function.update s.hc i (some nd) := rfl
    have hcase : ∀ q nd', Open dn (spawned c s i x y) q nd' →
        (q = i ∧ nd' = nd) ∨ (q ≠ i ∧ Open dn s q nd') := by
      rintro q nd' ⟨h1, h2⟩
      rw [hhc] at h1
      by_cases hq : q = i
      · subst hq
        rw [Function.update_self] at h1
        exact Or.inl ⟨rfl, (Option.some.inj h1).symm⟩
      · rw [Function.update_of_ne hq] at h1
        exact Or.inr ⟨hq, h1, h2⟩
    have hidn : i ∉ dn := by
      intro hd
      obtain ⟨⟨nd', h1⟩, _⟩ := h.dead i hd
      rw [o2] at h1; cases h1
    have hopen : Open dn (spawned c s i x y) i nd :=
      ⟨by rw [hhc, Function.update_self], hidn⟩
    have hkeep : ∀ q nd', Open dn s q nd' → Open dn (spawned c s i x y) q nd' := by
      rintro q nd' ⟨h1, h2⟩
      refine ⟨?_, h2⟩
      rw [hhc, Function.update_of_ne]
      · exact h1
      · rintro rfl; rw [o2] at h1; cases h1
    have hnside : ∀ j, nd.side j ∉ live := by
      intro j
      rcases mem_sides.1 ⟨j, rfl⟩ with e | e
      · rw [e]; exact g1
      · rw [e]; exact g2
    have hchild : ∀ q, Child dn (spawned c s i x y) q ↔ Child dn s q ∨ q = a ∨ q = b := by
      intro q
      constructor
      · rintro ⟨q', nd', j, h1, h2⟩
        rcases hcase q' nd' h1 with ⟨rfl, rfl⟩ | ⟨_, h3⟩
        · exact Or.inr (mem_sides.1 ⟨j, h2⟩)
        · exact Or.inl ⟨q', nd', j, h3, h2⟩
      · rintro (⟨q', nd', j, h1, h2⟩ | h1)
        · exact ⟨q', nd', j, hkeep q' nd' h1, h2⟩
        · obtain ⟨j, hj⟩ := (mem_sides (nd := nd)).2 h1
          exact ⟨i, nd, j, hopen, hj⟩
    have hfl : ∀ f, (s.final f).isSome → f ∈ live := fun f hf =>
      (h.liveIff f).2 (Or.inr (Or.inr (Or.inl hf)))
    refine ⟨by simp [spawned, h.lenA], h.lenC, ?_, ?_, ?_, ?_, ?_, ?_, ?_, ?_, ?_, ?_, ?_, ?_, ?_, g4,
      g5, g6, g7, ?_⟩
    · show M ≤ max s.hsize (i + 1)
      have := h.hsz; omega
    · intro q nd' hq
      show q < max s.hsize (i + 1)
      rw [hhc] at hq
      by_cases hqi : q = i
      · omega
      · rw [Function.update_of_ne hqi] at hq
        have := h.keyLt q nd' hq; omega
    · intro q hq
      obtain ⟨⟨nd', h1⟩, h2, h3⟩ := h.dead q hq
      have hqi : q ≠ i := by rintro rfl; rw [o2] at h1; cases h1
      refine ⟨⟨nd', by rw [hhc, Function.update_of_ne hqi]; exact h1⟩, ?_, h3⟩
      rw [hchild]
      rintro (h4 | h4 | h4)
      · exact h2 h4
      · exact g1 (h4 ▸ h.key_live h1)
      · exact g2 (h4 ▸ h.key_live h1)
    · intro q nd' hq
      show ((s.active.set a true).set b true)[q]? = _
      rcases hcase q nd' hq with ⟨rfl, _⟩ | ⟨_, h1⟩
      · rw [hact q hiL]; exact o1
      · rw [hact q (h.key_live h1.1)]; exact h.keyAct q nd' h1
    · intro q nd' j hq
      show ((s.active.set a true).set b true)[_]? = _
      rcases hcase q nd' hq with ⟨rfl, rfl⟩ | ⟨_, h1⟩
      · rcases mem_sides.1 ⟨j, rfl⟩ with e | e
        · rw [e]; exact hactA
        · rw [e]; exact hactB
      · rw [hact _ (h.side_live h1 j)]; exact h.sideAct q nd' j h1
    · intro q nd' hq
      rcases hcase q nd' hq with ⟨rfl, rfl⟩ | ⟨_, h1⟩
      · exact g3
      · exact h.sidesNe q nd' h1
    · intro q nd' j hq
      rw [hhc]
      rcases hcase q nd' hq with ⟨rfl, rfl⟩ | ⟨_, h1⟩
      · have hne : nd.side j ≠ q := by rintro e; exact hnside j (e ▸ hiL)
        rw [Function.update_of_ne hne]
        cases hs : s.hc (nd.side j) with
        | none => rfl
        | some nd2 => exact absurd (h.key_live hs) (hnside j)
      · have hne : nd'.side j ≠ i := fun e => o3 ⟨q, nd', j, h1, e⟩
        rw [Function.update_of_ne hne]; exact h.sideNone q nd' j h1
    · intro q q' nd1 nd2 j j' hq hq' e
      rcases hcase q nd1 hq with ⟨rfl, rfl⟩ | ⟨_, h1⟩ <;>
        rcases hcase q' nd2 hq' with ⟨rfl, rfl⟩ | ⟨_, h2⟩
      · rfl
      · exact absurd (h.side_live h2 j') (e ▸ hnside j)
      · exact absurd (h.side_live h1 j) (e ▸ hnside j')
      · exact h.uniq q q' nd1 nd2 j j' h1 h2 e
    · intro f hf
      show ((s.active.set a true).set b true)[_]? = _
      rw [hact f (hfl f hf)]; exact h.finInact f hf
    · intro f hf
      rw [hhc, Function.update_of_ne]
      · exact h.finNone f hf
      · rintro rfl; change (s.final f).isSome at hf; rw [o4] at hf; cases hf
    · intro f hf
      rw [hchild]
      rintro (h4 | h4 | h4)
      · exact h.finChild f hf h4
      · exact g1 (h4 ▸ hfl f hf)
      · exact g2 (h4 ▸ hfl f hf)
    · intro q hq
      obtain ⟨p1, p2, p3, p4⟩ := h.orphOk q (List.mem_cons_of_mem _ hq)
      have hqi : q ≠ i := by rintro rfl; exact hi hq
      have hqL : q ∈ live := (h.liveIff q).2 (Or.inr (Or.inr (Or.inr (List.mem_cons_of_mem _ hq))))
      refine ⟨?_, by rw [hhc, Function.update_of_ne hqi]; exact p2, ?_, p4⟩
      · show ((s.active.set a true).set b true)[_]? = _
        rw [hact q hqL]; exact p1
      · rw [hchild]
        rintro (h4 | h4 | h4)
        · exact p3 h4
        · exact g1 (h4 ▸ hqL)
        · exact g2 (h4 ▸ hqL)
    · intro q
      rw [Finset.mem_insert, Finset.mem_insert, h.liveIff q, hchild, hhc]
      show _ ↔ _ ∨ _ ∨ (s.final q).isSome ∨ _
      by_cases hqi : q = i
      · subst hqi
        simp
      · rw [Function.update_of_ne hqi, List.mem_cons]
        constructor
        · rintro (h1 | h1 | h1 | h1 | h1 | h1 | h1)
          · exact Or.inr (Or.inl (Or.inr (Or.inl h1)))
          · exact Or.inr (Or.inl (Or.inr (Or.inr h1)))
          · exact Or.inl h1
          · exact Or.inr (Or.inl (Or.inl h1))
          · exact Or.inr (Or.inr (Or.inl h1))
          · exact absurd h1 hqi
          · exact Or.inr (Or.inr (Or.inr h1))
        · rintro (h1 | (h1 | h1 | h1) | h1 | h1)
          · exact Or.inr (Or.inr (Or.inl h1))
          · exact Or.inr (Or.inr (Or.inr (Or.inl h1)))
          · exact Or.inl h1
          · exact Or.inr (Or.inl h1)
          · exact Or.inr (Or.inr (Or.inr (Or.inr (Or.inl h1))))
          · exact Or.inr (Or.inr (Or.inr (Or.inr (Or.inr (Or.inr h1)))))
    · intro q hq
      change ((s.active.set a true).set b true)[q]? = some true at hq
      rw [Finset.mem_insert, Finset.mem_insert]
      by_cases hqb : q = b
      · exact Or.inr (Or.inl hqb)
      · by_cases hqa : q = a
        · exact Or.inl hqa
        · rw [List.getElem?_set_ne fun e => hqb e.symm, List.getElem?_set_ne fun e => hqa e.symm] at hq
          exact Or.inr (Or.inr (h.actLive q hq))

/-! ### Removing partitions -/

/-- The state after partition `p` has been removed. -/
def removed (s : St R n) (p : Nat) : St R n :=
  { s with
    hc := Function.update s.hc p none
    active := s.active.set p false
    gen := s.gen.reclaim p
    ncl := sub64 s.ncl 1 }

theorem removeStep_ok {M : Nat} {dn : List Nat} {live : Finset Nat} {s : St R n} {p : Nat}
    (h : Wf M (p :: dn) [] live s) (hp : p ∉ dn) :
    removeStep s p = .ok (removed s p) ∧ Wf M dn [] (live.erase p) (removed s p) ∧ p ∈ live := by
  obtain ⟨⟨nd0, h1⟩, h2, h3⟩ := h.dead p (by simp)
  have hpL : p ∈ live := h.key_live h1
  have hpM : p < M := h.live_lt hpL
  have hhc : (removed s p).hc = Function.update s.hc p none := rfl
  have hopen : ∀ q nd, Open dn (removed s p) q nd ↔ Open (p :: dn) s q nd := by
    intro q nd
    unfold Open
    rw [hhc]
    by_cases hq : q = p
    · subst hq; simp
    · rw [Function.update_of_ne hq]; simp [hq]
  have hchild : ∀ q, Child dn (removed s p) q ↔ Child (p :: dn) s q := by
    intro q
    unfold Child
    simp only [hopen]
  have hact : ∀ q, q ≠ p → (s.active.set p false)[q]? = s.active[q]? := fun q hq =>
    List.getElem?_set_ne fun e => hq e.symm
  refine ⟨?_, ?_, hpL⟩
  · unfold removeStep St.eraseNode
    rw [if_pos (by have := h.hsz; omega)]
    simp only
    unfold St.deactivate
    simp only
    rw [active_set h hpM]
    rfl
  · refine ⟨by simp [removed, h.lenA], h.lenC, h.hsz, ?_, ?_, ?_, ?_, ?_, ?_, ?_, ?_, ?_, ?_, ?_, ?_, ?_,
      ?_, ?_, h.maxLt, ?_⟩
    · intro q nd hq
      rw [hhc] at hq
      by_cases hqp : q = p
      · subst hqp; rw [Function.update_self] at hq; cases hq
      · rw [Function.update_of_ne hqp] at hq; exact h.keyLt q nd hq
    · intro q hq
      obtain ⟨⟨nd, d1⟩, d2, d3⟩ := h.dead q (List.mem_cons_of_mem _ hq)
      have hqp : q ≠ p := by rintro rfl; exact hp hq
      exact ⟨⟨nd, by rw [hhc, Function.update_of_ne hqp]; exact d1⟩, by rw [hchild]; exact d2, d3⟩
    · intro q nd hq
      rw [hopen] at hq
      show (s.active.set p false)[q]? = _
      rw [hact q (by rintro rfl; exact hq.2 (by simp))]
      exact h.keyAct q nd hq
    · intro q nd j hq
      rw [hopen] at hq
      show (s.active.set p false)[_]? = _
      rw [hact _ fun e => h2 ⟨q, nd, j, hq, e⟩]
      exact h.sideAct q nd j hq
    · intro q nd hq
      rw [hopen] at hq; exact h.sidesNe q nd hq
    · intro q nd j hq
      rw [hopen] at hq
      rw [hhc, Function.update_of_ne fun e => h2 ⟨q, nd, j, hq, e⟩]
      exact h.sideNone q nd j hq
    · intro q q' nd nd' j j' hq hq' e
      rw [hopen] at hq hq'
      exact h.uniq q q' nd nd' j j' hq hq' e
    · intro f hf
      show (s.active.set p false)[_]? = _
      rw [hact f (by rintro rfl; change (s.final f).isSome at hf; rw [h3] at hf; cases hf)]
      exact h.finInact f hf
    · intro f hf
      rw [hhc, Function.update_of_ne (by
        rintro rfl; change (s.final f).isSome at hf; rw [h3] at hf; cases hf)]
      exact h.finNone f hf
    · intro f hf
      rw [hchild]; exact h.finChild f hf
    · intro q hq; cases hq
    · intro q
      rw [Finset.mem_erase, h.liveIff q, hchild, hhc]
      show _ ↔ _ ∨ _ ∨ (s.final q).isSome ∨ _
      by_cases hqp : q = p
      · subst hqp
        simp [h2, h3]
      · rw [Function.update_of_ne hqp]
        simp [hqp]
    · exact List.nodup_cons.2 ⟨fun hr => h.disj p hr hpL, h.nodup⟩
    · intro q hq
      rw [Finset.mem_erase]
      rintro ⟨hne, hL⟩
      rcases List.mem_cons.1 hq with rfl | hq
      · exact hne rfl
      · exact h.disj q hq hL
    · intro q
      show q ≤ s.gen.maxId ↔ q ∈ live.erase p ∨ q ∈ p :: s.gen.recycler
      rw [h.all q, Finset.mem_erase, List.mem_cons]
      by_cases hqp : q = p
      · subst hqp; simp [hpL]
      · simp [hqp]
    · intro q hq
      change (s.active.set p false)[q]? = some true at hq
      by_cases hqp : q = p
      · subst hqp
        rw [List.getElem?_set_self (by rw [h.lenA]; exact hpM)] at hq
        cases hq
      · rw [hact q hqp] at hq
        exact Finset.mem_erase.2 ⟨hqp, h.actLive q hq⟩

/-! ### Looking for two rows of each side -/

theorem scan_left_done (assign : Nat → Nat) (z o : Nat) (az ao : Bool) : ∀ (vs : List Nat) (x : Scan),
    x.l0c = true → x.l1c = true →
      (scanRows assign z o az ao vs x).l0 = x.l0 ∧ (scanRows assign z o az ao vs x).l1 = x.l1 := by
  intro vs
  induction vs with
  | nil => intro x _ _; exact ⟨rfl, rfl⟩
  | cons v vs ih =>
    intro x h0 h1
    unfold scanRows
    simp only [h0, h1, Bool.not_true, Bool.false_eq_true, if_false]
    repeat' split
    all_goals first
      | exact ⟨rfl, rfl⟩
      | exact ih _ h0 h1
      | exact ih _ rfl rfl
      | exact ih _ h0 rfl
      | exact ih _ rfl h1

theorem scan_right_done (assign : Nat → Nat) (z o : Nat) (az ao : Bool) : ∀ (vs : List Nat) (x : Scan),
    x.r0c = true → x.r1c = true →
      (scanRows assign z o az ao vs x).r0 = x.r0 ∧ (scanRows assign z o az ao vs x).r1 = x.r1 := by
  intro vs
  induction vs with
  | nil => intro x _ _; exact ⟨rfl, rfl⟩
  | cons v vs ih =>
    intro x h0 h1
    unfold scanRows
    simp only [h0, h1, Bool.not_true, Bool.false_eq_true, if_false]
    repeat' split
    all_goals first
      | exact ⟨rfl, rfl⟩
      | exact ih _ h0 h1
      | exact ih _ rfl rfl
      | exact ih _ h0 rfl
      | exact ih _ rfl h1

/-- The rows that are found are among those that are looked at. -/
theorem scan_mem (P : Nat → Prop) (assign : Nat → Nat) (z o : Nat) (az ao : Bool) : ∀ (vs : List Nat),
    (∀ v ∈ vs, P v) → ∀ x : Scan, (∀ v, x.l0 = some v → P v) → (∀ v, x.l1 = some v → P v) →
      (∀ v, x.r0 = some v → P v) → (∀ v, x.r1 = some v → P v) →
      (∀ v, (scanRows assign z o az ao vs x).l0 = some v → P v) ∧ (∀ v, (scanRows assign z o az ao vs x).l1 = some v → P v) ∧
      (∀ v, (scanRows assign z o az ao vs x).r0 = some v → P v) ∧ (∀ v, (scanRows assign z o az ao vs x).r1 = some v → P v) := by
  intro vs
  induction vs with
  | nil => intro _ x h0 h1 h2 h3; exact ⟨h0, h1, h2, h3⟩
  | cons w vs ih =>
    intro hv x h0 h1 h2 h3
    have hw : ∀ v, some w = some v → P v := by rintro v ⟨⟩; exact hv w (by simp)
    have ih := ih fun v hh => hv v (List.mem_cons_of_mem _ hh)
    unfold scanRows
    dsimp only
    repeat' split
    all_goals first
      | exact ⟨h0, h1, h2, h3⟩
      | exact ⟨h0, hw, h2, h3⟩
      | exact ⟨h0, h1, h2, hw⟩
      | exact ih _ h0 h1 h2 h3
      | exact ih _ hw h1 h2 h3
      | exact ih _ h0 hw h2 h3
      | exact ih _ h0 h1 hw h3
      | exact ih _ h0 h1 h2 hw

/-- Two rows of the left side are found if there are two. -/
theorem scan_left_finds (assign : Nat → Nat) (z o : Nat) (ao : Bool) :
    ∀ (vs : List Nat) (x : Scan), x.l1c = false → (x.l0c = true → x.l0.isSome) →
      (if x.l0c then 1 else 2) ≤ (vs.filter fun v => assign v = z).length →
      (scanRows assign z o true ao vs x).l0.isSome ∧ (scanRows assign z o true ao vs x).l1.isSome := by
  intro vs
  induction vs with
  | nil =>
    intro x _ _ hn
    simp only [List.filter_nil, List.length_nil] at hn
    split at hn <;> omega
  | cons v vs ih =>
    intro x h1 h0 hn
    unfold scanRows
    simp only [h1, Bool.and_false, Bool.false_and, Bool.false_eq_true, if_false, Bool.not_false,
      if_true, Bool.not_true]
    by_cases hz : assign v = z
    · rw [if_pos hz]
      rw [List.filter_cons_of_pos (by simpa using hz), List.length_cons] at hn
      cases hl0 : x.l0c with
      | false =>
        simp only [Bool.not_false, if_true]
        refine ih _ rfl (fun _ => rfl) ?_
        rw [hl0] at hn
        simp at hn ⊢
        omega
      | true =>
        simp only [Bool.not_true, Bool.false_eq_true, if_false]
        cases ao with
        | false => simp only [Bool.not_false, if_true]; exact ⟨h0 hl0, rfl⟩
        | true =>
          simp only [Bool.not_true, Bool.false_eq_true, if_false]
          obtain ⟨e1, e2⟩ := scan_left_done assign z o true true vs
            { l0 := x.l0, l1 := some v, r0 := x.r0, r1 := x.r1, l0c := true, l1c := true,
              r0c := x.r0c, r1c := x.r1c } rfl rfl
          rw [e1, e2]
          exact ⟨h0 hl0, rfl⟩
    · rw [if_neg hz]
      rw [List.filter_cons_of_neg (by simpa using hz)] at hn
      repeat' split
      all_goals first | exact ih _ h1 h0 hn | exact ih _ rfl h0 hn

/-- Two rows of the right side are found if there are two. -/
theorem scan_right_finds (assign : Nat → Nat) (z o : Nat) (hzo : z ≠ o) (az : Bool) :
    ∀ (vs : List Nat) (x : Scan), x.r1c = false → (x.r0c = true → x.r0.isSome) →
      (if x.r0c then 1 else 2) ≤ (vs.filter fun v => assign v = o).length →
      (scanRows assign z o az true vs x).r0.isSome ∧ (scanRows assign z o az true vs x).r1.isSome := by
  intro vs
  induction vs with
  | nil =>
    intro x _ _ hn
    simp only [List.filter_nil, List.length_nil] at hn
    split at hn <;> omega
  | cons v vs ih =>
    intro x h1 h0 hn
    unfold scanRows
    simp only [h1, Bool.and_false, Bool.false_eq_true, if_false, Bool.not_false, if_true, Bool.not_true]
    by_cases ho : assign v = o
    · have hz : assign v ≠ z := by rw [ho]; exact fun e => hzo e.symm
      rw [if_neg hz, if_pos ho]
      rw [List.filter_cons_of_pos (by simpa using ho), List.length_cons] at hn
      cases hl0 : x.r0c with
      | false =>
        simp only [Bool.not_false, if_true]
        refine ih _ rfl (fun _ => rfl) ?_
        rw [hl0] at hn
        simp at hn ⊢
        omega
      | true =>
        simp only [Bool.not_true, Bool.false_eq_true, if_false]
        cases az with
        | false => simp only [Bool.not_false, if_true]; exact ⟨h0 hl0, rfl⟩
        | true =>
          simp only [Bool.not_true, Bool.false_eq_true, if_false]
          obtain ⟨e1, e2⟩ := scan_right_done assign z o true true vs
            { l0 := x.l0, l1 := x.l1, r0 := x.r0, r1 := some v, l0c := x.l0c, l1c := x.l1c,
              r0c := true, r1c := true } rfl rfl
          rw [e1, e2]
          exact ⟨h0 hl0, rfl⟩
    · rw [List.filter_cons_of_neg (by simpa using ho)] at hn
      rw [if_neg ho]
      repeat' split
      all_goals first | exact ih _ h1 h0 hn | exact ih _ rfl h0 hn

theorem filter_range_size (N : Nat) (a : Nat → Nat) (i : Nat) :
    ((List.range N).filter fun v => a v = i).length = size N a i := by
  unfold size
  rw [← List.toFinset_card_of_nodup (List.nodup_range.filter _)]
  congr 1
  ext v
  simp

end Knor.Hclust
