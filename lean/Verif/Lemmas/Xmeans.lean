import Verif.Model.Xmeans
import Verif.Lemmas.HclustLoop

/-! Taking splits back. -/

namespace Knor.Xmeans

open Knor Knor.Hclust Knor.Spec

variable {R D : Type _} {n : Nat}

/-- What the decision relies on: ids are in range and distinct, every row is in a side of its
partition, and the counts are right. -/
structure Sound (N M : Nat) (s : St R n) : Prop where
  lenA : s.active.length = M
  lenC : s.counts.length = M
  hsz : ∀ p nd, s.hc p = some nd → p < s.hsize
  keyLt : ∀ p nd, s.hc p = some nd → p < M
  sideLt : ∀ p nd j, s.hc p = some nd → nd.side j < M
  sidesNe : ∀ p nd, s.hc p = some nd → nd.zero ≠ nd.one
  sideNone : ∀ p nd j, s.hc p = some nd → s.hc (nd.side j) = none
  uniq : ∀ p q nd nd' j j', s.hc p = some nd → s.hc q = some nd' → nd.side j = nd'.side j' → p = q
  counts : ∀ i, i < M → s.counts[i]? = some (size N s.assign i : Int)
  rows : ∀ r, r < N → ∀ p nd, s.hc p = some nd → (s.part r = p ↔ ∃ j, s.assign r = nd.side j)
  empty : ∀ r, r < N → s.hc (s.assign r) = none

/-- A side of one of the partitions `l`. -/
def Kid (s : St R n) (l : List Nat) (i : Nat) : Prop :=
  ∃ p nd j, p ∈ l ∧ s.hc p = some nd ∧ nd.side j = i

theorem kid_cons {s : St R n} {l : List Nat} {p i : Nat} {nd : Node R n} (hp : s.hc p = some nd) :
    Kid s (p :: l) i ↔ (i = nd.zero ∨ i = nd.one) ∨ Kid s l i := by
  constructor
  · rintro ⟨q, nd', j, h1, h2, h3⟩
    rcases List.mem_cons.1 h1 with rfl | h1
    · rw [hp] at h2; cases h2
      exact Or.inl (mem_sides.1 ⟨j, h3⟩)
    · exact Or.inr ⟨q, nd', j, h1, h2, h3⟩
  · rintro (h | ⟨q, nd', j, h1, h2, h3⟩)
    · obtain ⟨j, hj⟩ := mem_sides.2 h
      exact ⟨p, nd, j, by simp, hp, hj⟩
    · exact ⟨q, nd', j, List.mem_cons_of_mem _ h1, h2, h3⟩

theorem revertCounts_ok {s : St R n} {p lid rid : Nat} {a b : Int} (hp : p < s.counts.length)
    (hl : s.counts[lid]? = some a) (hr : s.counts[rid]? = some b) :
    revertCounts p lid rid s = .ok { s with
      counts := ((s.counts.set p (a + b)).set rid 0).set lid 0 } := by
  have hl' : lid < s.counts.length := by
    by_contra hc; rw [List.getElem?_eq_none (by omega)] at hl; cases hl
  have hr' : rid < s.counts.length := by
    by_contra hc; rw [List.getElem?_eq_none (by omega)] at hr; cases hr
  unfold revertCounts St.getCount St.setCount
  rw [hl, hr]
  simp only
  rw [if_pos hp]
  simp only [List.length_set]
  rw [if_pos hr']
  simp only [List.length_set]
  rw [if_pos hl']

theorem deactivate3_ok {s : St R n} {p lid rid : Nat} (hp : p < s.active.length)
    (hl : lid < s.active.length) (hr : rid < s.active.length) :
    deactivate3 p lid rid s = .ok { s with
      active := ((s.active.set lid false).set rid false).set p false } := by
  unfold deactivate3 St.deactivate
  rw [setFlag_lt hl]
  simp only
  rw [setFlag_lt (by rw [List.length_set]; exact hr)]
  simp only
  rw [setFlag_lt (by rw [List.length_set, List.length_set]; exact hp)]

/-- The state after the splits `dn` have been taken back, except that x-means still has their entries in
the map and g-means has not moved the rows. -/
structure Back (N : Nat) (alg : Alg) (cl : Sparse R n) (s0 : St R n) (dn : List Nat) (s : St R n) :
    Prop where
  hc : ∀ p, s.hc p = if alg = .g ∧ p ∈ dn then none else s0.hc p
  hsize : s.hsize = s0.hsize
  part : s.part = s0.part
  grow : s.grow = s0.grow
  lenA : s.active.length = s0.active.length
  act1 : ∀ i, i ∈ dn ∨ Kid s0 dn i → s.active[i]? = some false
  act2 : ∀ i, i ∉ dn → ¬ Kid s0 dn i → s.active[i]? = s0.active[i]?
  lenC : s.counts.length = s0.counts.length
  cnt1 : ∀ p nd, p ∈ dn → s0.hc p = some nd →
    s.counts[p]? = some ((size N s0.assign nd.zero + size N s0.assign nd.one : Nat) : Int)
  cnt2 : ∀ i, Kid s0 dn i → s.counts[i]? = some 0
  cnt3 : ∀ i, i ∉ dn → ¬ Kid s0 dn i → s.counts[i]? = s0.counts[i]?
  asg1 : alg = .x → ∀ p nd j, p ∈ dn → s0.hc p = some nd → ∀ r, s0.assign r = nd.side j → s.assign r = p
  asg2 : ∀ r, alg = .g ∨ ¬ Kid s0 dn (s0.assign r) → s.assign r = s0.assign r
  fin : ∀ i, s.final i = if i ∈ dn then some (cl.means i) else s0.final i
  maxId : s.gen.maxId = s0.gen.maxId
  recMem : ∀ i, i ∈ s.gen.recycler ↔ Kid s0 dn i ∨ i ∈ s0.gen.recycler
  recNd : s0.gen.recycler.Nodup → (∀ p nd j, s0.hc p = some nd → nd.side j ∉ s0.gen.recycler) →
    s.gen.recycler.Nodup
  nclX : alg = .x → s.ncl = s0.ncl
  nclG : alg = .g → 2 * dn.length ≤ s0.ncl → s0.ncl < 18446744073709551616 →
    s.ncl + 2 * dn.length = s0.ncl

theorem Back.nil (N : Nat) (alg : Alg) (cl : Sparse R n) (s : St R n) : Back N alg cl s [] s := by
  have hk : ∀ i, ¬ Kid s [] i := by rintro i ⟨p, nd, j, h, _⟩; cases h
  refine ⟨?_, rfl, rfl, rfl, rfl, ?_, fun _ _ _ => rfl, rfl, ?_, ?_, fun _ _ _ => rfl, ?_, fun _ _ => rfl,
    ?_, rfl, ?_, fun h _ => h, fun _ => rfl, fun _ _ _ => rfl⟩
  · intro p; rw [if_neg (by simp)]
  · rintro i (h | h)
    · cases h
    · exact absurd h (hk i)
  · intro p nd h; cases h
  · intro i h; exact absurd h (hk i)
  · intro _ p nd j h; cases h
  · intro i; simp
  · intro i; simp [hk i]

/-- The state after one more split is taken back. -/
def took (alg : Alg) (cl : Sparse R n) (orig : Nat → Nat) (p : Nat) (nd : Node R n) (a b : Int)
    (s : St R n) : St R n :=
  { s with
    hc := if alg = .g then Function.update s.hc p none else s.hc
    active := ((s.active.set nd.zero false).set nd.one false).set p false
    counts := ((s.counts.set p (a + b)).set nd.one 0).set nd.zero 0
    assign := if alg = .x then
      (fun r => if orig r = nd.zero ∨ orig r = nd.one then p else s.assign r) else s.assign
    gen := (s.gen.reclaim nd.zero).reclaim nd.one
    final := Function.update s.final p (some (cl.means p))
    ncl := if alg = .g then sub64 s.ncl 2 else s.ncl }

/-- One step of either algorithm. -/
def reject (alg : Alg) (cl : Sparse R n) (orig : Nat → Nat) (s : St R n) (p : Nat) : Res (St R n) :=
  match alg with
  | .x => rejectX cl orig s p
  | .g => rejectG cl s p

theorem reject_ok {alg : Alg} {cl : Sparse R n} {orig : Nat → Nat} {s : St R n} {p : Nat}
    {nd : Node R n} {a b : Int} (hp : s.hc p = some nd) (hs : p < s.hsize) (hcl : p < cl.nclust)
    (hpA : p < s.active.length) (hzA : nd.zero < s.active.length) (hoA : nd.one < s.active.length)
    (hpC : p < s.counts.length) (hz : s.counts[nd.zero]? = some a) (ho : s.counts[nd.one]? = some b) :
    reject alg cl orig s p = .ok (took alg cl orig p nd a b s) := by
  cases alg with
  | x =>
    unfold reject rejectX
    simp only [hp]
    rw [revertCounts_ok (s := { s with assign := fun r => (if orig r = nd.zero ∨ orig r = nd.one then p
      else s.assign r) }) hpC hz ho]
    simp only
    rw [deactivate3_ok (s := { s with
      assign := fun r => (if orig r = nd.zero ∨ orig r = nd.one then p else s.assign r)
      counts := ((s.counts.set p (a + b)).set nd.one 0).set nd.zero 0 }) hpA hzA hoA]
    simp only
    unfold putFinal
    rw [if_pos hcl]
    simp [took, reclaim2]
  | g =>
    unfold reject rejectG
    simp only [hp]
    rw [deactivate3_ok hpA hzA hoA]
    simp only
    unfold St.eraseNode
    simp only
    rw [if_pos hs]
    simp only
    unfold putFinal
    rw [if_pos hcl]
    simp only [reclaim2]
    rw [revertCounts_ok (p := p) (lid := nd.zero) (rid := nd.one) (a := a) (b := b)
      (by exact hpC) (by exact hz) (by exact ho)]
    simp [took]

theorem Back.step {N M : Nat} {alg : Alg} {cl : Sparse R n} {s0 s : St R n} {dn : List Nat} {p : Nat}
    {nd : Node R n} (hs : Sound N M s0) (h : Back N alg cl s0 dn s) (hdn : ∀ q ∈ dn, ∃ nd, s0.hc q = some nd)
    (hpd : p ∉ dn) (hp : s0.hc p = some nd) (hcl : p < cl.nclust) :
    ∃ s', reject alg cl s0.assign s p = .ok s' ∧ Back N alg cl s0 (p :: dn) s' := by
  have hzM := hs.sideLt p nd 0 hp
  have hoM := hs.sideLt p nd 1 hp
  rw [side_zero] at hzM
  rw [side_one] at hoM
  have hpM := hs.keyLt p nd hp
  have hkid : ∀ q nd' j, s0.hc q = some nd' → q ∉ dn → ¬ Kid s0 dn (nd'.side j) := by
    rintro q nd' j hq hqd ⟨q', nd2, j', h1, h2, h3⟩
    exact hqd (hs.uniq q' q nd2 nd' j' j h2 hq h3 ▸ h1)
  have hsd : ∀ q nd' j, s0.hc q = some nd' → nd'.side j ∉ dn := by
    intro q nd' j hq hm
    obtain ⟨nd2, h2⟩ := hdn _ hm
    rw [hs.sideNone q nd' j hq] at h2; cases h2
  have hkk : ∀ q nd', s0.hc q = some nd' → ¬ Kid s0 dn q := by
    rintro q nd' hq ⟨q', nd2, j', h1, h2, rfl⟩
    rw [hs.sideNone q' nd2 j' h2] at hq; cases hq
  have hpz : p ≠ nd.zero := by
    rintro e
    have := hs.sideNone p nd 0 hp
    rw [side_zero, ← e, hp] at this; cases this
  have hpo : p ≠ nd.one := by
    rintro e
    have := hs.sideNone p nd 1 hp
    rw [side_one, ← e, hp] at this; cases this
  have hzo := hs.sidesNe p nd hp
  have hcz : s.counts[nd.zero]? = some (size N s0.assign nd.zero : Int) := by
    rw [h.cnt3 nd.zero (hsd p nd 0 hp) (hkid p nd 0 hp hpd)]
    exact hs.counts _ hzM
  have hco : s.counts[nd.one]? = some (size N s0.assign nd.one : Int) := by
    rw [h.cnt3 nd.one (hsd p nd 1 hp) (hkid p nd 1 hp hpd)]
    exact hs.counts _ hoM
  have hhp : s.hc p = some nd := by rw [h.hc p, if_neg (by tauto)]; exact hp
  have hLA : s.active.length = M := h.lenA.trans hs.lenA
  have hLC : s.counts.length = M := h.lenC.trans hs.lenC
  have e := reject_ok (alg := alg) (cl := cl) (orig := s0.assign) hhp
    (by rw [h.hsize]; exact hs.hsz p nd hp) hcl (by omega) (by omega) (by omega) (by omega) hcz hco
  refine ⟨_, e, ?_⟩
  refine ⟨?_, h.hsize, h.part, h.grow, ?_, ?_, ?_, ?_, ?_, ?_, ?_, ?_, ?_, ?_, h.maxId, ?_, ?_, ?_, ?_⟩
  · intro q
    show (if alg = .g then Function.update s.hc p none else s.hc) q = _
    by_cases ha : alg = .g
    · rw [if_pos ha]
      by_cases hq : q = p
      · subst hq; rw [Function.update_self, if_pos ⟨ha, by simp⟩]
      · rw [Function.update_of_ne hq, h.hc q]
        simp [hq, ha]
    · rw [if_neg ha, h.hc q]
      simp [ha]
  · show (((s.active.set nd.zero false).set nd.one false).set p false).length = _
    simp [h.lenA]
  · intro i hi
    show (((s.active.set nd.zero false).set nd.one false).set p false)[i]? = _
    by_cases e1 : i = p
    · subst e1
      rw [List.getElem?_set_self (by simp; omega)]
    rw [List.getElem?_set_ne fun e => e1 e.symm]
    by_cases e2 : i = nd.one
    · subst e2
      rw [List.getElem?_set_self (by simp; omega)]
    rw [List.getElem?_set_ne fun e => e2 e.symm]
    by_cases e3 : i = nd.zero
    · subst e3
      rw [List.getElem?_set_self (by omega)]
    rw [List.getElem?_set_ne fun e => e3 e.symm]
    apply h.act1
    rcases hi with hi | hi
    · rcases List.mem_cons.1 hi with hi | hi
      · exact absurd hi e1
      · exact Or.inl hi
    · rcases (kid_cons hp).1 hi with (hi | hi) | hi
      · exact absurd hi e3
      · exact absurd hi e2
      · exact Or.inr hi
  · intro i h1 h2
    show (((s.active.set nd.zero false).set nd.one false).set p false)[i]? = _
    rw [kid_cons hp] at h2
    simp only [List.mem_cons, not_or] at h1 h2
    rw [List.getElem?_set_ne fun e => h1.1 e.symm, List.getElem?_set_ne fun e => h2.1.2 e.symm,
      List.getElem?_set_ne fun e => h2.1.1 e.symm]
    exact h.act2 i h1.2 h2.2
  · show (((s.counts.set p _).set nd.one 0).set nd.zero 0).length = _
    simp [h.lenC]
  · intro q nd' hq hqn
    show (((s.counts.set p _).set nd.one 0).set nd.zero 0)[q]? = _
    rcases List.mem_cons.1 hq with rfl | hq
    · rw [hp] at hqn; cases hqn
      rw [List.getElem?_set_ne fun e => hpz e.symm, List.getElem?_set_ne fun e => hpo e.symm,
        List.getElem?_set_self (by omega)]
      push_cast
      rfl
    · have hne : ∀ j, nd.side j ≠ q := fun j e => hsd p nd j hp (e ▸ hq)
      rw [List.getElem?_set_ne (show nd.zero ≠ q from hne 0),
        List.getElem?_set_ne (show nd.one ≠ q from hne 1),
        List.getElem?_set_ne (by rintro rfl; exact hpd hq)]
      exact h.cnt1 q nd' hq hqn
  · intro i hi
    show (((s.counts.set p _).set nd.one 0).set nd.zero 0)[i]? = _
    by_cases e3 : i = nd.zero
    · subst e3
      rw [List.getElem?_set_self (by simp; omega)]
    rw [List.getElem?_set_ne fun e => e3 e.symm]
    by_cases e2 : i = nd.one
    · subst e2
      rw [List.getElem?_set_self (by simp; omega)]
    rw [List.getElem?_set_ne fun e => e2 e.symm]
    rcases (kid_cons hp).1 hi with (hi | hi) | hi
    · exact absurd hi e3
    · exact absurd hi e2
    · rw [List.getElem?_set_ne (by rintro rfl; exact hkk p nd hp hi)]
      exact h.cnt2 i hi
  · intro i h1 h2
    show (((s.counts.set p _).set nd.one 0).set nd.zero 0)[i]? = _
    rw [kid_cons hp] at h2
    simp only [List.mem_cons, not_or] at h1 h2
    rw [List.getElem?_set_ne fun e => h2.1.1 e.symm, List.getElem?_set_ne fun e => h2.1.2 e.symm,
      List.getElem?_set_ne fun e => h1.1 e.symm]
    exact h.cnt3 i h1.2 h2.2
  · intro ha q nd' j hq hqn r hr
    show (if alg = .x then
      (fun r => if s0.assign r = nd.zero ∨ s0.assign r = nd.one then p else s.assign r) else s.assign) r = q
    rw [if_pos ha]
    rcases List.mem_cons.1 hq with rfl | hq
    · rw [hp] at hqn; cases hqn
      rw [if_pos (mem_sides.1 ⟨j, hr.symm⟩)]
    · rw [if_neg]
      · exact h.asg1 ha q nd' j hq hqn r hr
      · intro hz
        obtain ⟨j', hj'⟩ := (mem_sides (nd := nd)).2 hz
        exact hpd (hs.uniq p q nd nd' j' j hp hqn (hj'.trans hr) ▸ hq)
  · intro r hr
    show (if alg = .x then
      (fun r => if s0.assign r = nd.zero ∨ s0.assign r = nd.one then p else s.assign r) else s.assign) r = _
    rcases hr with hr | hr
    · rw [if_neg (by rw [hr]; decide)]
      exact h.asg2 r (Or.inl hr)
    · rw [kid_cons hp, not_or] at hr
      by_cases ha : alg = .x
      · rw [if_pos ha]
        rw [if_neg hr.1]
        exact h.asg2 r (Or.inr hr.2)
      · rw [if_neg ha]
        exact h.asg2 r (Or.inr hr.2)
  · intro i
    show Function.update s.final p (some (cl.means p)) i = _
    by_cases hi : i = p
    · subst hi; simp
    · rw [Function.update_of_ne hi, h.fin i]
      simp [hi]
  · intro i
    show i ∈ nd.one :: nd.zero :: s.gen.recycler ↔ _
    rw [kid_cons hp, List.mem_cons, List.mem_cons, h.recMem i]
    tauto
  · intro hnd hdis
    show (nd.one :: nd.zero :: s.gen.recycler).Nodup
    have hnot : ∀ j, nd.side j ∉ s.gen.recycler := by
      intro j hm
      rcases (h.recMem _).1 hm with h1 | h1
      · exact hkid p nd j hp hpd h1
      · exact hdis p nd j hp h1
    refine List.nodup_cons.2 ⟨?_, List.nodup_cons.2 ⟨hnot 0, h.recNd hnd hdis⟩⟩
    rw [List.mem_cons, not_or]
    exact ⟨fun e => hzo e.symm, hnot 1⟩
  · intro ha
    show (if alg = .g then sub64 s.ncl 2 else s.ncl) = _
    rw [if_neg (by rw [ha]; decide)]
    exact h.nclX ha
  · intro ha h1 h2
    show (if alg = .g then sub64 s.ncl 2 else s.ncl) + _ = _
    rw [List.length_cons] at h1 ⊢
    have h3 := h.nclG ha (by omega) h2
    rw [if_pos ha]
    unfold sub64 u64
    omega

theorem back_all {N M : Nat} {alg : Alg} {cl : Sparse R n} {s0 : St R n} (hs : Sound N M s0)
    {rej : List Nat} (hnd : rej.Nodup) (hk : ∀ p ∈ rej, ∃ nd, s0.hc p = some nd)
    (hcl : ∀ p ∈ rej, p < cl.nclust) :
    ∃ s1 dn, forEach (reject alg cl s0.assign) rej s0 = .ok s1 ∧ Back N alg cl s0 dn s1 ∧
      dn.length = rej.length ∧ ∀ p, p ∈ dn ↔ p ∈ rej := by
  obtain ⟨s1, e, dn, h1, h2, h3, h4, _⟩ := forEach_inv (f := reject alg cl s0.assign)
    (P := fun l s => ∃ dn, Back N alg cl s0 dn s ∧ dn.length + l.length = rej.length ∧
      (∀ p, p ∈ rej ↔ p ∈ dn ∨ p ∈ l) ∧ l.Nodup ∧ ∀ p ∈ l, p ∉ dn) (by
      rintro p l s ⟨dn, h1, h2, h3, h4, h5⟩
      obtain ⟨nd, hp⟩ := hk p ((h3 p).2 (Or.inr (by simp)))
      obtain ⟨hpl, hl⟩ := List.nodup_cons.1 h4
      obtain ⟨s', e, h'⟩ := h1.step hs (fun q hq => hk q ((h3 q).2 (Or.inl hq))) (h5 p (by simp)) hp
        (hcl p ((h3 p).2 (Or.inr (by simp))))
      refine ⟨s', e, p :: dn, h', ?_, ?_, hl, ?_⟩
      · rw [List.length_cons] at h2 ⊢; omega
      · intro q
        rw [h3 q, List.mem_cons, List.mem_cons]
        tauto
      · intro q hq hc
        rcases List.mem_cons.1 hc with rfl | hc
        · exact hpl hq
        · exact h5 q (List.mem_cons_of_mem _ hq) hc) rej s0
    ⟨[], Back.nil N alg cl s0, by simp, by simp, hnd, by simp⟩
  exact ⟨s1, dn, e, h1, by simpa using h2, fun p => by rw [h3 p]; simp⟩

/-- The whole effect of taking back the splits `rej`. -/
structure Taken (N : Nat) (alg : Alg) (cl : Sparse R n) (s0 : St R n) (rej : List Nat) (s : St R n) :
    Prop where
  hc : ∀ p, s.hc p = if p ∈ rej then none else s0.hc p
  hsize : s.hsize = s0.hsize
  part : s.part = s0.part
  grow : s.grow = s0.grow
  lenA : s.active.length = s0.active.length
  act1 : ∀ i, i ∈ rej ∨ Kid s0 rej i → s.active[i]? = some false
  act2 : ∀ i, i ∉ rej → ¬ Kid s0 rej i → s.active[i]? = s0.active[i]?
  lenC : s.counts.length = s0.counts.length
  cnt1 : ∀ p nd, p ∈ rej → s0.hc p = some nd →
    s.counts[p]? = some ((size N s0.assign nd.zero + size N s0.assign nd.one : Nat) : Int)
  cnt2 : ∀ i, Kid s0 rej i → s.counts[i]? = some 0
  cnt3 : ∀ i, i ∉ rej → ¬ Kid s0 rej i → s.counts[i]? = s0.counts[i]?
  asg1 : ∀ p nd j, p ∈ rej → s0.hc p = some nd → ∀ r, r < N → s0.assign r = nd.side j → s.assign r = p
  asg2 : ∀ r, r < N → ¬ Kid s0 rej (s0.assign r) → s.assign r = s0.assign r
  fin : ∀ i, s.final i = if i ∈ rej then some (cl.means i) else s0.final i
  maxId : s.gen.maxId = s0.gen.maxId
  recMem : ∀ i, i ∈ s.gen.recycler ↔ Kid s0 rej i ∨ i ∈ s0.gen.recycler
  recNd : s0.gen.recycler.Nodup → (∀ p nd j, s0.hc p = some nd → nd.side j ∉ s0.gen.recycler) →
    s.gen.recycler.Nodup
  nclX : alg = .x → s.ncl = s0.ncl
  nclG : alg = .g → 2 * rej.length ≤ s0.ncl → s0.ncl < 18446744073709551616 →
    s.ncl + 2 * rej.length = s0.ncl

theorem forEach_same {σ α : Type _} {f : σ → α → Res σ} {s : σ} :
    ∀ (l : List α), (∀ x ∈ l, f s x = .ok s) → forEach f l s = .ok s := by
  intro l
  induction l with
  | nil => intro _; rfl
  | cons x l ih =>
    intro h
    unfold forEach
    rw [h x (by simp)]
    exact ih fun y hy => h y (List.mem_cons_of_mem _ hy)

theorem erase_all : ∀ (l : List Nat) (s : St R n), (∀ p ∈ l, p < s.hsize) →
    forEach St.eraseNode l s = .ok { s with hc := fun p => if p ∈ l then none else s.hc p } := by
  intro l
  induction l with
  | nil => intro s _; simp [forEach]
  | cons x l ih =>
    intro s h
    have e : St.eraseNode s x = .ok { s with hc := Function.update s.hc x none } := by
      unfold St.eraseNode
      exact if_pos (h x (by simp))
    unfold forEach
    rw [e]
    simp only
    rw [ih { s with hc := Function.update s.hc x none } (fun p hp => h p (List.mem_cons_of_mem _ hp))]
    congr 2
    funext p
    by_cases hp : p ∈ l
    · simp [hp]
    · by_cases hpx : p = x
      · subst hpx; simp
      · simp [hp, hpx]

theorem kid_congr {s : St R n} {l l' : List Nat} (h : ∀ p, p ∈ l ↔ p ∈ l') (i : Nat) :
    Kid s l i ↔ Kid s l' i := by
  unfold Kid
  simp only [h]

theorem decideX_ok {N M : Nat} {cl : Sparse R n} {s0 : St R n} (hs : Sound N M s0)
    {rej : List Nat} (hnd : rej.Nodup) (hk : ∀ p ∈ rej, ∃ nd, s0.hc p = some nd)
    (hcl : ∀ p ∈ rej, p < cl.nclust) :
    ∃ s1, decideX cl rej s0 = .ok s1 ∧ Taken N .x cl s0 rej s1 := by
  obtain ⟨s1, dn, e, h, hlen, hmem⟩ := back_all (alg := .x) hs hnd hk hcl
  have e0 : forEach bicCheck s0.keys s0 = .ok s0 := by
    apply forEach_same
    intro p hp
    obtain ⟨_, nd, hp⟩ := mem_keys.1 hp
    have hz := hs.sideLt p nd 0 hp
    have ho := hs.sideLt p nd 1 hp
    rw [side_zero] at hz
    rw [side_one] at ho
    unfold bicCheck
    simp only [hp]
    unfold St.getCount
    rw [hs.counts _ hz]
    simp only
    rw [hs.counts _ ho]
  have e2 := erase_all rej s1 (by
    intro p hp
    obtain ⟨nd, h1⟩ := hk p hp
    rw [h.hsize]; exact hs.hsz p nd h1)
  have e3 : decideX cl rej s0 = .ok { s1 with hc := fun p => if p ∈ rej then none else s1.hc p } := by
    unfold decideX
    rw [e0]
    simp only
    rw [show forEach (rejectX cl s0.assign) rej s0 = .ok s1 from e]
    exact e2
  refine ⟨_, e3, ?_⟩
  have hkid := kid_congr (s := s0) hmem
  refine ⟨?_, h.hsize, h.part, h.grow, h.lenA, ?_, ?_, h.lenC, ?_, ?_, ?_, ?_, ?_, ?_, h.maxId, ?_, h.recNd,
    h.nclX, ?_⟩
  · intro p
    show (if p ∈ rej then none else s1.hc p) = _
    rw [h.hc p]
    simp
  · intro i; rw [← hmem, ← hkid]; exact h.act1 i
  · intro i; rw [← hmem, ← hkid]; exact h.act2 i
  · intro p nd; rw [← hmem]; exact h.cnt1 p nd
  · intro i; rw [← hkid]; exact h.cnt2 i
  · intro i; rw [← hmem, ← hkid]; exact h.cnt3 i
  · intro p nd j hp h1 r _; exact h.asg1 rfl p nd j ((hmem p).2 hp) h1 r
  · intro r _ hr; exact h.asg2 r (Or.inr (by rw [hkid]; exact hr))
  · intro i
    show s1.final i = _
    rw [h.fin i]
    simp only [hmem]
  · intro i; rw [← hkid]; exact h.recMem i
  · intro ha; cases ha

theorem decideG_ok {N M : Nat} {c : Cfg R D n} (hN : c.nrow = N) {cl : Sparse R n} {s0 : St R n}
    (hs : Sound N M s0) (hne : s0.keys ≠ []) (hpop : ∀ p nd, s0.hc p = some nd → ∃ r, r < N ∧ s0.part r = p)
    {rej : List Nat} (hnd : rej.Nodup) (hk : ∀ p ∈ rej, ∃ nd, s0.hc p = some nd)
    (hcl : ∀ p ∈ rej, p < cl.nclust) :
    ∃ s1, decideG c cl rej s0 = .ok s1 ∧ Taken N .g cl s0 rej s1 := by
  obtain ⟨s1, dn, e, h, hlen, hmem⟩ := back_all (alg := .g) hs hnd hk hcl
  have e0 : forEach (adCheck c) s0.keys s0 = .ok s0 := by
    apply forEach_same
    intro p hp
    obtain ⟨_, nd, hp⟩ := mem_keys.1 hp
    obtain ⟨r, hr, h2⟩ := hpop p nd hp
    unfold adCheck
    rw [if_pos ⟨r, List.mem_range.2 (by omega), h2⟩]
  have e3 : decideG c cl rej s0 = .ok { s1 with
      assign := fun r => (if s1.part r ∈ rej then s1.part r else s1.assign r) } := by
    unfold decideG
    rw [if_neg hne, e0]
    simp only
    rw [show forEach (rejectG cl) rej s0 = .ok s1 from e]
  refine ⟨_, e3, ?_⟩
  have hkid := kid_congr (s := s0) hmem
  refine ⟨?_, h.hsize, h.part, h.grow, h.lenA, ?_, ?_, h.lenC, ?_, ?_, ?_, ?_, ?_, ?_, h.maxId, ?_, h.recNd,
    h.nclX, ?_⟩
  · intro p
    show s1.hc p = _
    rw [h.hc p]
    simp [hmem]
  · intro i; rw [← hmem, ← hkid]; exact h.act1 i
  · intro i; rw [← hmem, ← hkid]; exact h.act2 i
  · intro p nd; rw [← hmem]; exact h.cnt1 p nd
  · intro i; rw [← hkid]; exact h.cnt2 i
  · intro i; rw [← hmem, ← hkid]; exact h.cnt3 i
  · intro p nd j hp h1 r hr h2
    show (if s1.part r ∈ rej then s1.part r else s1.assign r) = p
    have := (hs.rows r hr p nd h1).2 ⟨j, h2⟩
    rw [h.part, this, if_pos hp]
  · intro r hr hr2
    show (if s1.part r ∈ rej then s1.part r else s1.assign r) = _
    rw [h.part, if_neg]
    · exact h.asg2 r (Or.inl rfl)
    · intro hm
      obtain ⟨nd, h1⟩ := hk _ hm
      obtain ⟨j, hj⟩ := (hs.rows r hr _ nd h1).1 rfl
      exact hr2 ⟨_, nd, j, hm, h1, hj.symm⟩
  · intro i
    show s1.final i = _
    rw [h.fin i]
    simp only [hmem]
  · intro i; rw [← hkid]; exact h.recMem i
  · intro ha
    rw [← hlen]; exact h.nclG ha

end Knor.Xmeans
