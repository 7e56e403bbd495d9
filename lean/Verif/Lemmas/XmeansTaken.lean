import Verif.Lemmas.Xmeans

/-! Taking splits back keeps the state well-formed. -/

namespace Knor.Xmeans

open Knor Knor.Hclust Knor.Spec

variable {R D : Type _} {n : Nat}

theorem Sound.of [Field R] {N M : Nat} {data : Nat → Row R n} {live : Finset Nat} {s : St R n}
    (hw : Wf M [] [] live s) (hs : Settled N M data s) : Sound N M s := by
  have op : ∀ {p nd}, s.hc p = some nd → Open [] s p nd := fun h => ⟨h, by simp⟩
  refine ⟨hw.lenA, hw.lenC, hw.keyLt, fun p nd hp => hw.live_lt (hw.key_live hp),
    fun p nd j hp => hw.live_lt (hw.side_live (op hp) j), fun p nd hp => hw.sidesNe p nd (op hp),
    fun p nd j hp => hw.sideNone p nd j (op hp),
    fun p q nd nd' j j' hp hq => hw.uniq p q nd nd' j j' (op hp) (op hq), hs.counts, ?_, ?_⟩
  · intro r hr p nd hp
    constructor
    · rintro rfl
      rcases hs.rows r hr with ⟨_, h2⟩ | ⟨nd', j, h1, h2⟩
      · rw [hp] at h2; cases h2
      · rw [hp] at h1; cases h1; exact ⟨j, h2⟩
    · rintro ⟨j, hj⟩
      rcases hs.rows r hr with ⟨h1, _⟩ | ⟨nd', j', h1, h2⟩
      · rw [hj] at h1
        exact absurd ⟨p, nd, j, op hp, rfl⟩ (hw.finChild _ h1)
      · exact hw.uniq _ p nd' nd j' j (op h1) (op hp) (by rw [← h2, hj])
  · intro r hr
    rcases hs.rows r hr with ⟨h1, _⟩ | ⟨nd', j', h1, h2⟩
    · exact hw.finNone _ h1
    · rw [h2]; exact hw.sideNone _ nd' j' (op h1)

theorem kid_child {s : St R n} {rej : List Nat} {i : Nat} (h : Kid s rej i) : Child [] s i := by
  obtain ⟨p, nd, j, _, h2, h3⟩ := h
  exact ⟨p, nd, j, ⟨h2, by simp⟩, h3⟩

section
variable {N M : Nat} {alg : Alg} {cl : Sparse R n} {s0 s : St R n} {rej : List Nat} {live : Finset Nat}

theorem Taken.key (h : Taken N alg cl s0 rej s) {p : Nat} {nd : Node R n} :
    s.hc p = some nd ↔ p ∉ rej ∧ s0.hc p = some nd := by
  rw [h.hc p]
  by_cases hp : p ∈ rej
  · simp [hp]
  · simp [hp]

theorem Taken.child (h : Taken N alg cl s0 rej s) {i : Nat} (hc : Child [] s i) : Child [] s0 i := by
  obtain ⟨p, nd, j, h2, h3⟩ := hc
  exact ⟨p, nd, j, ⟨(h.key.1 h2.1).2, by simp⟩, h3⟩

theorem child_not_kid (hw : Wf M [] [] live s0) {p : Nat} {nd : Node R n} (hp : s0.hc p = some nd)
    (hr : p ∉ rej) (j : Fin 2) : ¬ Kid s0 rej (nd.side j) := by
  rintro ⟨q, nd', j', h1, h2, h3⟩
  exact hr (hw.uniq q p nd' nd j' j ⟨h2, by simp⟩ ⟨hp, by simp⟩ h3 ▸ h1)

open Classical in
/-- The ids in use afterwards. -/
noncomputable def kept (s0 : St R n) (rej : List Nat) (live : Finset Nat) : Finset Nat :=
  live.filter fun i => ¬ Kid s0 rej i

open Classical in
theorem mem_kept {i : Nat} : i ∈ kept s0 rej live ↔ i ∈ live ∧ ¬ Kid s0 rej i := by
  unfold kept
  rw [Finset.mem_filter]

theorem Taken.wf (h : Taken N alg cl s0 rej s) (hw : Wf M [] [] live s0)
    (hk : ∀ p ∈ rej, ∃ nd, s0.hc p = some nd) : Wf M [] [] (kept s0 rej live) s := by
  have op : ∀ {p nd}, s.hc p = some nd → Open [] s0 p nd := fun h' => ⟨(h.key.1 h').2, by simp⟩
  have hkk : ∀ p nd, s0.hc p = some nd → ¬ Kid s0 rej p :=
    fun p nd hp hc => hw.key_not_child hp (kid_child hc)
  have hside : ∀ p nd j, s0.hc p = some nd → nd.side j ∉ rej := by
    intro p nd j hp hc
    obtain ⟨nd', h1⟩ := hk _ hc
    rw [hw.sideNone p nd j ⟨hp, by simp⟩] at h1; cases h1
  have hfk : ∀ f, (s0.final f).isSome → ¬ Kid s0 rej f := fun f hf hc => hw.finChild f hf (kid_child hc)
  have hdis : ∀ p nd j, s0.hc p = some nd → nd.side j ∉ s0.gen.recycler :=
    fun p nd j hp hc => hw.disj _ hc (hw.side_live ⟨hp, by simp⟩ j)
  refine ⟨h.lenA.trans hw.lenA, h.lenC.trans hw.lenC, by rw [h.hsize]; exact hw.hsz, ?_, by simp, ?_, ?_, ?_, ?_,
    ?_, ?_, ?_, ?_, by simp, ?_, h.recNd hw.nodup hdis, ?_, ?_, by rw [h.maxId]; exact hw.maxLt, ?_⟩
  · intro p nd hp; rw [h.hsize]; exact hw.keyLt p nd (op hp).1
  · intro p nd hp
    obtain ⟨h1, h2⟩ := h.key.1 hp.1
    rw [h.act2 p h1 (hkk p nd h2)]
    exact hw.keyAct p nd ⟨h2, by simp⟩
  · intro p nd j hp
    obtain ⟨h1, h2⟩ := h.key.1 hp.1
    rw [h.act2 _ (hside p nd j h2) (child_not_kid hw h2 h1 j)]
    exact hw.sideAct p nd j ⟨h2, by simp⟩
  · intro p nd hp; exact hw.sidesNe p nd (op hp.1)
  · intro p nd j hp
    rw [h.hc, hw.sideNone p nd j (op hp.1)]
    simp
  · intro p q nd nd' j j' hp hq; exact hw.uniq p q nd nd' j j' (op hp.1) (op hq.1)
  · intro f hf
    by_cases hr : f ∈ rej
    · exact h.act1 f (Or.inl hr)
    · rw [h.fin f, if_neg hr] at hf
      rw [h.act2 f hr (hfk f hf)]
      exact hw.finInact f hf
  · intro f hf
    rw [h.hc f]
    by_cases hr : f ∈ rej
    · rw [if_pos hr]
    · rw [h.fin f, if_neg hr] at hf
      rw [if_neg hr]; exact hw.finNone f hf
  · intro f hf hc
    have hc' := h.child hc
    by_cases hr : f ∈ rej
    · obtain ⟨nd, h1⟩ := hk f hr
      exact hw.key_not_child h1 hc'
    · rw [h.fin f, if_neg hr] at hf
      exact hw.finChild f hf hc'
  · intro i
    rw [mem_kept, hw.liveIff i]
    constructor
    · rintro ⟨⟨nd, h1⟩ | ⟨p, nd, j, h1, h2⟩ | h1 | h1, hnk⟩
      · by_cases hr : i ∈ rej
        · exact Or.inr (Or.inr (Or.inl (by rw [h.fin i, if_pos hr]; rfl)))
        · exact Or.inl ⟨nd, h.key.2 ⟨hr, h1⟩⟩
      · refine Or.inr (Or.inl ⟨p, nd, j, ⟨h.key.2 ⟨?_, h1.1⟩, by simp⟩, h2⟩)
        exact fun hr => hnk ⟨p, nd, j, hr, h1.1, h2⟩
      · refine Or.inr (Or.inr (Or.inl ?_))
        rw [h.fin i]
        by_cases hr : i ∈ rej
        · rw [if_pos hr]; rfl
        · rw [if_neg hr]; exact h1
      · cases h1
    · rintro (⟨nd, h1⟩ | ⟨p, nd, j, h1, h2⟩ | h1 | h1)
      · obtain ⟨_, h3⟩ := h.key.1 h1
        exact ⟨Or.inl ⟨nd, h3⟩, hkk i nd h3⟩
      · obtain ⟨h3, h4⟩ := h.key.1 h1.1
        exact ⟨Or.inr (Or.inl ⟨p, nd, j, ⟨h4, by simp⟩, h2⟩), h2 ▸ child_not_kid hw h4 h3 j⟩
      · by_cases hr : i ∈ rej
        · obtain ⟨nd, h3⟩ := hk i hr
          exact ⟨Or.inl ⟨nd, h3⟩, hkk i nd h3⟩
        · rw [h.fin i, if_neg hr] at h1
          exact ⟨Or.inr (Or.inr (Or.inl h1)), hfk i h1⟩
      · cases h1
  · intro i hi
    rw [mem_kept]
    rcases (h.recMem i).1 hi with h1 | h1
    · exact fun hc => hc.2 h1
    · exact fun hc => hw.disj i h1 hc.1
  · intro i
    rw [h.maxId, hw.all i, mem_kept, h.recMem i]
    constructor
    · rintro (h1 | h1)
      · by_cases hc : Kid s0 rej i
        · exact Or.inr (Or.inl hc)
        · exact Or.inl ⟨h1, hc⟩
      · exact Or.inr (Or.inr h1)
    · rintro (h1 | h1 | h1)
      · exact Or.inl h1.1
      · exact Or.inl ((hw.liveIff i).2 (Or.inr (Or.inl (kid_child h1))))
      · exact Or.inr h1
  · intro i hi
    have hr : i ∉ rej := fun hc => by rw [h.act1 i (Or.inl hc)] at hi; cases hi
    have hn : ¬ Kid s0 rej i := fun hc => by rw [h.act1 i (Or.inr hc)] at hi; cases hi
    rw [h.act2 i hr hn] at hi
    exact mem_kept.2 ⟨hw.actLive i hi, hn⟩

/-- A cluster that takes no part keeps its rows. -/
theorem Taken.same (h : Taken N alg cl s0 rej s) {i : Nat} (h1 : i ∉ rej) (h2 : ¬ Kid s0 rej i) {r : Nat}
    (hr : r < N) : s.assign r = i ↔ s0.assign r = i := by
  by_cases hc : Kid s0 rej (s0.assign r)
  · obtain ⟨p, nd, j, h3, h4, h5⟩ := hc
    rw [h.asg1 p nd j h3 h4 r hr h5.symm]
    constructor
    · rintro rfl; exact absurd h3 h1
    · rintro rfl; exact absurd ⟨p, nd, j, h3, h4, h5⟩ h2
  · rw [h.asg2 r hr hc]

/-- The rows of a partition taken back. -/
theorem Taken.back (h : Taken N alg cl s0 rej s) (hs : Sound N M s0) {p : Nat} {nd : Node R n}
    (h1 : p ∈ rej) (h2 : s0.hc p = some nd) {r : Nat} (hr : r < N) :
    s.assign r = p ↔ s0.assign r = nd.zero ∨ s0.assign r = nd.one := by
  rw [← mem_sides]
  constructor
  · intro e
    by_cases hc : Kid s0 rej (s0.assign r)
    · obtain ⟨q, nd', j, h3, h4, h5⟩ := hc
      rw [h.asg1 q nd' j h3 h4 r hr h5.symm] at e
      subst e
      rw [h2] at h4; cases h4
      exact ⟨j, h5⟩
    · rw [h.asg2 r hr hc] at e
      have := hs.empty r hr
      rw [e, h2] at this; cases this
  · rintro ⟨j, hj⟩
    exact h.asg1 p nd j h1 h2 r hr hj.symm

theorem size_union {a a' : Nat → Nat} {p z o : Nat} (hzo : z ≠ o)
    (h : ∀ r, r < N → (a' r = p ↔ a r = z ∨ a r = o)) : size N a' p = size N a z + size N a o := by
  unfold size
  rw [← Finset.card_union_of_disjoint]
  · congr 1
    ext r
    simp only [Finset.mem_filter, Finset.mem_union, Finset.mem_range]
    constructor
    · rintro ⟨h1, h2⟩
      rcases (h r h1).1 h2 with h3 | h3
      · exact Or.inl ⟨h1, h3⟩
      · exact Or.inr ⟨h1, h3⟩
    · rintro (⟨h1, h2⟩ | ⟨h1, h2⟩)
      · exact ⟨h1, (h r h1).2 (Or.inl h2)⟩
      · exact ⟨h1, (h r h1).2 (Or.inr h2)⟩
  · rw [Finset.disjoint_left]
    intro r h1 h2
    rw [Finset.mem_filter] at h1 h2
    exact hzo (h1.2.symm.trans h2.2)

theorem Taken.counts (h : Taken N alg cl s0 rej s) (hs : Sound N M s0)
    (hk : ∀ p ∈ rej, ∃ nd, s0.hc p = some nd) {i : Nat} (hi : i < M) :
    s.counts[i]? = some (size N s.assign i : Int) := by
  by_cases hr : i ∈ rej
  · obtain ⟨nd, h1⟩ := hk i hr
    rw [h.cnt1 i nd hr h1, size_union (hs.sidesNe i nd h1) fun r hrN => h.back hs hr h1 hrN]
  · by_cases hc : Kid s0 rej i
    · rw [h.cnt2 i hc]
      have : size N s.assign i = 0 := by
        unfold size
        rw [Finset.card_eq_zero, Finset.filter_eq_empty_iff]
        intro r hrN e
        rw [Finset.mem_range] at hrN
        by_cases hc2 : Kid s0 rej (s0.assign r)
        · obtain ⟨q, nd', j, h3, h4, h5⟩ := hc2
          rw [h.asg1 q nd' j h3 h4 r hrN h5.symm] at e
          exact hr (e ▸ h3)
        · rw [h.asg2 r hrN hc2] at e
          exact hc2 (e ▸ hc)
      rw [this]; rfl
    · rw [h.cnt3 i hr hc, hs.counts i hi, size_congr fun r hrN => h.same hr hc hrN]

theorem Taken.settled [Field R] {data : Nat → Row R n} (h : Taken N alg cl s0 rej s) (hw : Wf M [] [] live s0)
    (hs : Settled N M data s0) (hk : ∀ p ∈ rej, ∃ nd, s0.hc p = some nd) : Settled N M data s := by
  have hso := Sound.of hw hs
  refine ⟨?_, fun i hi => h.counts hso hk hi, ?_⟩
  · intro r hr
    rw [h.part]
    by_cases hc : Kid s0 rej (s0.assign r)
    · obtain ⟨q, nd', j, h3, h4, h5⟩ := hc
      left
      rw [h.asg1 q nd' j h3 h4 r hr h5.symm, h.fin q, if_pos h3,
        (hso.rows r hr q nd' h4).2 ⟨j, h5.symm⟩, h.hc q, if_pos h3]
      exact ⟨rfl, rfl⟩
    · rw [h.asg2 r hr hc]
      rcases hs.rows r hr with ⟨h1, h2⟩ | ⟨nd, j, h1, h2⟩
      · left
        constructor
        · rw [h.fin]
          split
          · rfl
          · exact h1
        · rw [h.hc, h2]; simp
      · right
        refine ⟨nd, j, h.key.2 ⟨?_, h1⟩, h2⟩
        exact fun hr => hc ⟨_, nd, j, hr, h1, h2.symm⟩
  · intro p nd j hp
    obtain ⟨h1, h2⟩ := h.key.1 hp
    have hn : nd.side j ∉ rej := by
      intro hc
      obtain ⟨nd', h3⟩ := hk _ hc
      rw [hw.sideNone p nd j ⟨h2, by simp⟩] at h3; cases h3
    have hc := child_not_kid hw h2 h1 j
    obtain ⟨h3, h4⟩ := hs.nodes p nd j h2
    rw [h3, h4, size_congr fun r hr => h.same hn hc hr, meanOf_congr fun r hr => h.same hn hc hr]
    exact ⟨rfl, rfl⟩

theorem Taken.keys_length (h : Taken N alg cl s0 rej s) (hw : Wf M [] [] live s0) (hnd : rej.Nodup)
    (hk : ∀ p ∈ rej, ∃ nd, s0.hc p = some nd) : s.keys.length + rej.length = s0.keys.length := by
  have hw' := h.wf hw hk
  rw [← List.length_append]
  apply List.Perm.length_eq
  rw [List.perm_ext_iff_of_nodup _ (nodup_keys s0)]
  · intro p
    rw [List.mem_append, mem_keys' hw, mem_keys' hw']
    constructor
    · rintro (⟨nd, h1⟩ | h1)
      · exact ⟨nd, (h.key.1 h1).2⟩
      · exact hk p h1
    · rintro ⟨nd, h1⟩
      by_cases hr : p ∈ rej
      · exact Or.inr hr
      · exact Or.inl ⟨nd, h.key.2 ⟨hr, h1⟩⟩
  · rw [List.nodup_append]
    refine ⟨nodup_keys s, hnd, ?_⟩
    rintro a ha b hb rfl
    obtain ⟨nd, h1⟩ := (mem_keys' hw').1 ha
    exact (h.key.1 h1).1 hb

theorem kept_card (hw : Wf M [] [] live s0) (hnd : rej.Nodup) (hk : ∀ p ∈ rej, ∃ nd, s0.hc p = some nd) :
    (kept s0 rej live).card + 2 * rej.length = live.card := by
  induction rej with
  | nil =>
    have : kept s0 [] live = live := by
      ext i
      rw [mem_kept]
      constructor
      · exact fun h => h.1
      · intro h; exact ⟨h, by rintro ⟨p, nd, j, h, _⟩; cases h⟩
    rw [this]; simp
  | cons p l ih =>
    obtain ⟨hp, hl⟩ := List.nodup_cons.1 hnd
    have ih := ih hl fun q hq => hk q (List.mem_cons_of_mem _ hq)
    obtain ⟨nd, h1⟩ := hk p (by simp)
    have hmem : ∀ j, nd.side j ∈ kept s0 l live := by
      intro j
      exact mem_kept.2 ⟨hw.side_live ⟨h1, by simp⟩ j, child_not_kid hw h1 hp j⟩
    have e : kept s0 (p :: l) live = ((kept s0 l live).erase nd.zero).erase nd.one := by
      ext i
      rw [Finset.mem_erase, Finset.mem_erase, mem_kept, mem_kept, kid_cons h1]
      tauto
    have hne := hw.sidesNe p nd ⟨h1, by simp⟩
    have h2 : nd.one ∈ (kept s0 l live).erase nd.zero :=
      Finset.mem_erase.2 ⟨fun e => hne e.symm, hmem 1⟩
    have h3 : nd.zero ∈ kept s0 l live := hmem 0
    have c1 := Finset.card_erase_of_mem h2
    have c2 := Finset.card_erase_of_mem h3
    have c3 := Finset.card_pos.2 ⟨_, h2⟩
    have c4 := Finset.card_pos.2 ⟨_, h3⟩
    rw [e, List.length_cons]
    omega

end

end Knor.Xmeans
