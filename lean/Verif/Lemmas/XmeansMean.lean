import Verif.Lemmas.XmeansTaken

/-! The means of the partitions. -/

namespace Knor.Xmeans

open Knor Knor.Hclust Knor.Spec

variable {R D : Type _} {n : Nat}

/-- Row `r` counts for partition `i`. -/
def Counts (h : St R n) (i r : Nat) : Prop := h.active[h.assign r]? = some true ∧ h.part r = i

instance (h : St R n) (i r : Nat) : Decidable (Counts h i r) := by unfold Counts; infer_instance

/-- What row `r` adds to the number of members. -/
def wt (h : St R n) (i r : Nat) : Int := if Counts h i r then 1 else 0

/-- What row `r` adds to the sum. -/
def vl [Zero R] (c : Cfg R D n) (h : St R n) (i : Nat) (x : Fin n) (r : Nat) : R :=
  if Counts h i r then c.data r x else 0

/-- No entry is finalized, and nothing lies beyond the end. -/
structure Clean [Zero R] (a : Sparse R n) : Prop where
  numZ : ∀ i, a.nclust ≤ i → a.num i = 0
  meanZ : ∀ i, a.nclust ≤ i → a.means i = fun _ => 0
  opn : ∀ i, i < a.nclust → a.complete i = false

theorem clean_create [Zero R] (k : Nat) : Clean (Sparse.create k : Sparse R n) :=
  ⟨fun _ _ => rfl, fun _ _ => rfl, fun _ _ => rfl⟩

theorem clean_resize [Zero R] {a : Sparse R n} (h : Clean a) {idx : Nat} (hi : a.nclust ≤ idx) :
    Clean (a.resize idx) ∧ (a.resize idx).num = a.num ∧ (a.resize idx).means = a.means := by
  have e1 : (a.resize idx).num = a.num := by
    funext i
    show (if i < a.nclust then a.num i else 0) = _
    split
    · rfl
    · rw [h.numZ i (by omega)]
  have e2 : (a.resize idx).means = a.means := by
    funext i
    show (if i < a.nclust then a.means i else fun _ => 0) = _
    split
    · rfl
    · rw [h.meanZ i (by omega)]
  refine ⟨⟨?_, ?_, ?_⟩, e1, e2⟩
  · intro i hi'
    rw [e1]; exact h.numZ i (by have : idx + 1 ≤ i := hi'; omega)
  · intro i hi'
    rw [e2]; exact h.meanZ i (by have : idx + 1 ≤ i := hi'; omega)
  · intro i _
    show (if i < a.nclust then a.complete i else false) = false
    split
    · exact h.opn i ‹_›
    · rfl

theorem addMember_ok [Field R] {a : Sparse R n} (h : Clean a) (row : Row R n) (idx : Nat) :
    Clean (a.addMember row idx) ∧ a.nclust ≤ (a.addMember row idx).nclust ∧
      idx < (a.addMember row idx).nclust ∧
      (∀ i, (a.addMember row idx).num i = a.num i + if idx = i then 1 else 0) ∧
      ∀ i x, (a.addMember row idx).means i x = a.means i x + if idx = i then row x else 0 := by
  have key : ∀ y : Sparse R n, Clean y → idx < y.nclust → a.nclust ≤ y.nclust → y.num = a.num →
      y.means = a.means →
      let z : Sparse R n := { y with
        means := Function.update y.means idx (fun j => y.means idx j + row j)
        num := Function.update y.num idx (y.num idx + 1) }
      Clean z ∧ a.nclust ≤ z.nclust ∧ idx < z.nclust ∧
      (∀ i, z.num i = a.num i + if idx = i then 1 else 0) ∧
      ∀ i x, z.means i x = a.means i x + if idx = i then row x else 0 := by
    intro y hy h1 h2 h3 h4
    refine ⟨⟨?_, ?_, hy.opn⟩, h2, h1, ?_, ?_⟩
    · intro i hi
      have hi : y.nclust ≤ i := hi
      show Function.update y.num idx _ i = 0
      rw [Function.update_of_ne (by omega)]; exact hy.numZ i hi
    · intro i hi
      have hi : y.nclust ≤ i := hi
      show Function.update y.means idx _ i = _
      rw [Function.update_of_ne (by omega)]; exact hy.meanZ i hi
    · intro i
      show Function.update y.num idx _ i = _
      by_cases e : idx = i
      · subst e; rw [Function.update_self, if_pos rfl, h3]
      · rw [Function.update_of_ne (fun h => e h.symm), if_neg e, h3]; simp
    · intro i x
      show Function.update y.means idx _ i x = _
      by_cases e : idx = i
      · subst e; rw [Function.update_self, if_pos rfl, h4]
      · rw [Function.update_of_ne (fun h => e h.symm), if_neg e, h4]; simp
  unfold Sparse.addMember
  by_cases hi : a.nclust ≤ idx
  · rw [if_pos hi]
    obtain ⟨h1, h2, h3⟩ := clean_resize h hi
    exact key _ h1 (Nat.lt_succ_self idx) (by show a.nclust ≤ idx + 1; omega) h2 h3
  · rw [if_neg hi]
    exact key a h (by omega) (Nat.le_refl _) rfl rfl

/-- The rows `L` have been added. -/
structure Filled [Field R] (c : Cfg R D n) (h : St R n) (L : List Nat) (a a' : Sparse R n) : Prop where
  clean : Clean a'
  mono : a.nclust ≤ a'.nclust
  rows : ∀ r ∈ L, h.active[h.assign r]? = some true → h.part r < a'.nclust
  num : ∀ i, a'.num i = a.num i + (L.map (wt h i)).sum
  means : ∀ i x, a'.means i x = a.means i x + (L.map (vl c h i x)).sum

theorem filled_rows [Field R] {c : Cfg R D n} {h : St R n} : ∀ (L : List Nat) (a : Sparse R n), Clean a →
    (∀ r ∈ L, ∃ b, VMap.flagsGet h.active (h.assign r) = .ok b) →
    ∃ a', forEach (meanRow c h) L a = .ok a' ∧ Filled c h L a a' := by
  intro L
  induction L with
  | nil =>
    intro a ha _
    exact ⟨a, rfl, ha, Nat.le_refl _, by simp, by simp, by simp⟩
  | cons r L ih =>
    intro a ha hf
    obtain ⟨b, hb⟩ := hf r (by simp)
    have hget : h.active[h.assign r]? = some b := by
      unfold VMap.flagsGet at hb
      cases hg : h.active[h.assign r]? with
      | none => rw [hg] at hb; cases hb
      | some b' => rw [hg] at hb; cases hb; rfl
    cases b with
    | false =>
      obtain ⟨a', e, hF⟩ := ih a ha fun q hq => hf q (List.mem_cons_of_mem _ hq)
      have hnc : ∀ i, ¬ Counts h i r := by
        rintro i ⟨h1, _⟩; rw [hget] at h1; cases h1
      refine ⟨a', ?_, hF.clean, hF.mono, ?_, ?_, ?_⟩
      · unfold forEach meanRow
        rw [hb]
        exact e
      · intro q hq hact
        rcases List.mem_cons.1 hq with rfl | hq
        · rw [hget] at hact; cases hact
        · exact hF.rows q hq hact
      · intro i
        rw [hF.num i, List.map_cons, List.sum_cons, wt, if_neg (hnc i)]
        simp
      · intro i x
        rw [hF.means i x, List.map_cons, List.sum_cons, vl, if_neg (hnc i)]
        simp
    | true =>
      obtain ⟨h1, h2, h3, h4, h5⟩ := addMember_ok ha (c.data r) (h.part r)
      obtain ⟨a', e, hF⟩ := ih _ h1 fun q hq => hf q (List.mem_cons_of_mem _ hq)
      have hcn : ∀ i, Counts h i r ↔ h.part r = i := by
        intro i; unfold Counts; rw [hget]; simp
      refine ⟨a', ?_, hF.clean, Nat.le_trans h2 hF.mono, ?_, ?_, ?_⟩
      · unfold forEach meanRow
        rw [hb]
        exact e
      · intro q hq hact
        rcases List.mem_cons.1 hq with rfl | hq
        · exact Nat.lt_of_lt_of_le h3 hF.mono
        · exact hF.rows q hq hact
      · intro i
        rw [hF.num i, h4 i, List.map_cons, List.sum_cons, wt]
        simp only [hcn]
        ring
      · intro i x
        rw [hF.means i x, h5 i x, List.map_cons, List.sum_cons, vl]
        simp only [hcn]
        ring

theorem peq_ok [Field R] (hn : 0 < n) {a b : Sparse R n} (ha : Clean a) (hb : Clean b) :
    ∃ y, a.peq b = .ok y ∧ Clean y ∧ a.nclust ≤ y.nclust ∧ b.nclust ≤ y.nclust ∧
      (∀ i, y.num i = a.num i + b.num i) ∧ ∀ i x, y.means i x = a.means i x + b.means i x := by
  have key : ∀ y : Sparse R n, Clean y → b.nclust ≤ y.nclust → a.nclust ≤ y.nclust → y.num = a.num →
      y.means = a.means →
      let z : Sparse R n := { y with
        means := fun i => if i < b.nclust then fun j => y.means i j + b.means i j else y.means i
        num := fun i => if i < b.nclust then y.num i + b.num i else y.num i }
      Clean z ∧ a.nclust ≤ z.nclust ∧ b.nclust ≤ z.nclust ∧
      (∀ i, z.num i = a.num i + b.num i) ∧ ∀ i x, z.means i x = a.means i x + b.means i x := by
    intro y hy h1 h2 h3 h4
    refine ⟨⟨?_, ?_, hy.opn⟩, h2, h1, ?_, ?_⟩
    · intro i hi
      have hi : y.nclust ≤ i := hi
      show (if i < b.nclust then _ else y.num i) = 0
      rw [if_neg (by omega)]; exact hy.numZ i hi
    · intro i hi
      have hi : y.nclust ≤ i := hi
      show (if i < b.nclust then _ else y.means i) = _
      rw [if_neg (by omega)]; exact hy.meanZ i hi
    · intro i
      show (if i < b.nclust then y.num i + b.num i else y.num i) = _
      split
      · rw [h3]
      · rw [h3, hb.numZ i (by omega)]; simp
    · intro i x
      show (if i < b.nclust then fun j => y.means i j + b.means i j else y.means i) x = _
      split
      · rw [h4]
      · rw [h4, hb.meanZ i (by omega)]; simp
  unfold Sparse.peq
  by_cases h : a.nclust * n < b.nclust * n
  · have hlt : a.nclust < b.nclust := Nat.lt_of_mul_lt_mul_right h
    have hle : b.nclust ≤ b.nclust * n := Nat.le_mul_of_pos_right _ hn
    have hr : a.nclust ≤ b.nclust * n := by omega
    obtain ⟨h1, h2, h3⟩ := clean_resize ha hr
    simp only [if_pos h]
    have hsz : (a.resize (b.nclust * n)).nclust = b.nclust * n + 1 := rfl
    rw [if_neg (by omega)]
    exact ⟨_, rfl, key _ h1 (by omega) (by omega) h2 h3⟩
  · have hle : b.nclust ≤ a.nclust := by
      by_contra hc
      exact h (Nat.mul_lt_mul_of_pos_right (by omega) hn)
    simp only [if_neg h]
    rw [if_neg (by omega)]
    exact ⟨_, rfl, key a ha hle (Nat.le_refl _) rfl rfl⟩

/-- Between rounds: no count is negative, and an entry without members is zero. -/
structure Neat [Zero R] (a : Sparse R n) : Prop where
  numZ : ∀ i, a.nclust ≤ i → a.num i = 0
  nonneg : ∀ i, 0 ≤ a.num i
  meanZ : ∀ i, a.num i = 0 → a.means i = fun _ => 0

theorem neat_create [Zero R] (k : Nat) : Neat (Sparse.create k : Sparse R n) :=
  ⟨fun _ _ => rfl, fun _ => Int.le_refl _, fun _ _ => rfl⟩

theorem Neat.unfinalize [Field R] {a : Sparse R n} (h : Neat a) : Clean a.unfinalizeAll ∧
    a.unfinalizeAll.nclust = a.nclust ∧ a.unfinalizeAll.num = a.num ∧
    ∀ i, a.num i = 0 → a.unfinalizeAll.means i = fun _ => 0 := by
  have hm : ∀ i, a.num i = 0 → a.unfinalizeAll.means i = fun _ => 0 := by
    intro i hi
    show (if i < a.nclust ∧ a.complete i = true ∧ ¬ a.num i < 2 then _ else a.means i) = _
    rw [if_neg (by omega)]
    exact h.meanZ i hi
  refine ⟨⟨h.numZ, ?_, ?_⟩, rfl, rfl, hm⟩
  · intro i hi; exact hm i (h.numZ i hi)
  · intro i hi
    show (if i < a.nclust then false else _) = false
    have hi : i < a.nclust := hi
    rw [if_pos hi]

/-- What the means of the partitions are afterwards. -/
structure Means [Field R] (c : Cfg R D n) (s s1 : XSt R n) : Prop where
  h : s1.h = s.h
  mono : s.cl.nclust ≤ s1.cl.nclust
  rows : ∀ r, r < c.nrow → s.h.active[s.h.assign r]? = some true → s.h.part r < s1.cl.nclust
  neat : Neat s1.cl
  num : ∀ i, s1.cl.num i = s.cl.num i + ∑ r ∈ Finset.range c.nrow, wt s.h i r
  fresh : ∀ i, s.cl.num i = 0 → ∀ x, s1.cl.means i x =
    if s1.cl.num i > 1 then (∑ r ∈ Finset.range c.nrow, vl c s.h i x r) / (s1.cl.num i : R)
    else ∑ r ∈ Finset.range c.nrow, vl c s.h i x r

theorem meanPhase_ok [Field R] {c : Cfg R D n} (hN : 0 < c.nrow) (hT : 0 < c.reqThreads)
    (hlt : c.nrow < 4294967296) (hn : 0 < n) {s : XSt R n} (hz : Neat s.cl)
    (hact : ∀ r, r < c.nrow → ∃ b, VMap.flagsGet s.h.active (s.h.assign r) = .ok b) :
    ∃ s1, meanPhase c s = .ok s1 ∧ Means c s s1 := by
  have hsp := Kmeans.split_threadRows hN hT hlt
  set T := Partition.effThreads c.reqThreads c.nrow with hTdef
  set todo := Kmeans.threadRows c.nrow c.reqThreads with htodo
  obtain ⟨u1, u2, u3, u4⟩ := hz.unfinalize
  obtain ⟨s1, e, dn, hdn, h1, h2, h3, h4, h5, h6⟩ := forEach_inv (f := combineStep c)
    (P := fun l st => ∃ dn, dn ++ l = List.range T ∧ st.h = s.h ∧ Clean st.cl ∧
      s.cl.nclust ≤ st.cl.nclust ∧
      (∀ r ∈ dn.flatMap todo, s.h.active[s.h.assign r]? = some true → s.h.part r < st.cl.nclust) ∧
      (∀ i, st.cl.num i = s.cl.num i + ((dn.flatMap todo).map (wt s.h i)).sum) ∧
      ∀ i x, st.cl.means i x = s.cl.unfinalizeAll.means i x + ((dn.flatMap todo).map (vl c s.h i x)).sum) (by
      rintro t l st ⟨dn, hdn, h1, h2, h3, h4, h5, h6⟩
      obtain ⟨a, ea, hF⟩ := filled_rows (c := c) (h := st.h) (todo t) (Sparse.create (st.loc t))
        (clean_create _) (by
          intro r hr
          rw [h1]
          exact hact r ((hsp.mem_iff r).1 ⟨t, hr⟩))
      obtain ⟨y, ey, p1, p2, p3, p4, p5⟩ := peq_ok hn h2 hF.clean
      refine ⟨{ st with cl := y, loc := Function.update st.loc t a.nclust }, ?_, dn ++ [t], by simp [hdn], h1, p1,
        Nat.le_trans h3 p2, ?_, ?_, ?_⟩
      · unfold combineStep partitionMean
        rw [ea]
        simp only
        rw [ey]
      · intro r hr hb
        rw [List.flatMap_append, List.mem_append] at hr
        rcases hr with hr | hr
        · exact Nat.lt_of_lt_of_le (h4 r hr hb) p2
        · simp only [List.flatMap_cons, List.flatMap_nil, List.append_nil] at hr
          have := hF.rows r hr
          rw [h1] at this
          exact Nat.lt_of_lt_of_le (this hb) p3
      · intro i
        show y.num i = _
        rw [p4, h5, hF.num i, h1]
        simp only [List.flatMap_append, List.flatMap_cons, List.flatMap_nil, List.append_nil,
          List.map_append, List.sum_append, Sparse.create]
        ring
      · intro i x
        show y.means i x = _
        rw [p5, h6, hF.means i x, h1]
        simp only [List.flatMap_append, List.flatMap_cons, List.flatMap_nil, List.append_nil,
          List.map_append, List.sum_append, Sparse.create]
        ring) (List.range T) { s with cl := s.cl.unfinalizeAll }
    ⟨[], by simp, rfl, u1, by show s.cl.nclust ≤ s.cl.nclust; exact Nat.le_refl _, by simp,
      by intro i; show s.cl.num i = _; simp, by simp⟩
  rw [List.append_nil] at hdn
  subst hdn
  have hnum : ∀ i, s1.cl.num i = s.cl.num i + ∑ r ∈ Finset.range c.nrow, wt s.h i r := by
    intro i
    rw [h5 i, ← Par.sum_map_range, (hsp.perm.map _).sum_eq]
  have hmean : ∀ i x, s1.cl.means i x = s.cl.unfinalizeAll.means i x +
      ∑ r ∈ Finset.range c.nrow, vl c s.h i x r := by
    intro i x
    rw [h6 i x, ← Par.sum_map_range, (hsp.perm.map _).sum_eq]
  have hw : ∀ i r, 0 ≤ wt s.h i r := by
    intro i r; unfold wt; split <;> omega
  have hfin : ∀ i, s1.cl.num i ≤ 1 ∨ (s1.cl.nclust ≤ i) → s1.cl.finalizeAll.means i = s1.cl.means i := by
    intro i hi
    show (if i < s1.cl.nclust ∧ s1.cl.complete i = false ∧ s1.cl.num i > 1 then _ else _) = _
    rw [if_neg (by omega)]
  have hfin2 : ∀ i, s1.cl.num i > 1 → s1.cl.finalizeAll.means i = fun x => s1.cl.means i x / (s1.cl.num i : R) := by
    intro i hi
    have hlt : i < s1.cl.nclust := by
      by_contra hc
      rw [h2.numZ i (by omega)] at hi
      omega
    show (if i < s1.cl.nclust ∧ s1.cl.complete i = false ∧ s1.cl.num i > 1 then _ else _) = _
    rw [if_pos ⟨hlt, h2.opn i hlt, hi⟩]
  refine ⟨{ s1 with cl := s1.cl.finalizeAll }, ?_, h1, h3, ?_, ⟨h2.numZ, ?_, ?_⟩, hnum, ?_⟩
  · unfold meanPhase
    rw [e]
  · intro r hr hb
    exact h4 r (hsp.perm.mem_iff.2 (List.mem_range.2 hr)) hb
  · intro i
    show 0 ≤ s1.cl.num i
    rw [hnum i]
    have := hz.nonneg i
    have := Finset.sum_nonneg (s := Finset.range c.nrow) fun r _ => hw i r
    omega
  · intro i hi
    have hi : s1.cl.num i = 0 := hi
    show s1.cl.finalizeAll.means i = _
    rw [hfin i (Or.inl (by omega))]
    have h0 := hz.nonneg i
    have hs := Finset.sum_nonneg (s := Finset.range c.nrow) fun r _ => hw i r
    have he := hnum i
    have hsz : ∑ r ∈ Finset.range c.nrow, wt s.h i r = 0 := by omega
    have hsn : s.cl.num i = 0 := by omega
    funext x
    rw [hmean i x, u4 i hsn]
    have hall := (Finset.sum_eq_zero_iff_of_nonneg fun r _ => hw i r).1 hsz
    have : ∑ r ∈ Finset.range c.nrow, vl c s.h i x r = 0 := by
      apply Finset.sum_eq_zero
      intro r hr
      have := hall r hr
      unfold wt at this
      unfold vl
      split
      · rename_i hc; rw [if_pos hc] at this; cases this
      · rfl
    rw [this]; simp
  · intro i hi x
    show s1.cl.finalizeAll.means i x = if s1.cl.num i > 1 then _ / (s1.cl.num i : R) else _
    by_cases h1 : s1.cl.num i > 1
    · rw [if_pos h1, hfin2 i h1]
      show s1.cl.means i x / _ = _
      rw [hmean i x, u4 i hi]
      simp
    · rw [if_neg h1, hfin i (Or.inl (by omega)), hmean i x, u4 i hi]
      simp

end Knor.Xmeans
