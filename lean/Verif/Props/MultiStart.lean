import Verif.Model.MultiStart
import Verif.Lemmas.Kmeans
import Verif.Props.Init

/-!
# C52: the multi-start k-means++ driver
-/

namespace Knor.MultiStart

open Knor Knor.Init Knor.Par Knor.Spec Knor.Partition Finset

variable {R D : Type _} {k n : Nat}

theorem tallyLoop_ok (a : Nat → Option (Fin k)) : ∀ (l : List Nat) (v : Fin k → Int),
    (∀ r ∈ l, ∃ c, a r = some c) →
    tallyLoop a l v = .ok fun c => v c + (l.filter fun r => a r = some c).length := by
  intro l
  induction l with
  | nil => intro v _; simp [tallyLoop]
  | cons r l ih =>
    intro v h
    obtain ⟨c, hc⟩ := h r (by simp)
    unfold tallyLoop
    rw [hc]
    simp only
    rw [ih _ fun r hr => h r (by simp [hr])]
    congr 1
    funext c'
    by_cases hcc : c' = c
    · subst hcc
      rw [Function.update_self, List.filter_cons, if_pos (by simp [hc]), List.length_cons]
      push_cast
      ring
    · rw [Function.update_of_ne hcc, List.filter_cons, if_neg]
      simp only [hc, Option.some.injEq, decide_eq_true_eq]
      exact fun e => hcc e.symm

theorem tally_ok {N : Nat} {s : St R D k n} (h : ∀ r, r < N → ∃ c, (s.kpp.slots r).assign = some c) :
    s.tally N = .ok { s with counts := fun c => s.counts c +
      (Spec.count N (fun r => (s.kpp.slots r).assign) c : Int) } := by
  unfold St.tally
  rw [tallyLoop_ok _ _ _ fun r hr => h r (List.mem_range.1 hr)]
  simp only
  congr 2

theorem energy_eq [AddCommMonoid D] (N : Nat) (s : St R D k n) :
    s.energy N = ∑ r ∈ range N, (s.kpp.slots r).dist := by
  unfold St.energy
  rw [Kmeans.foldl_add_eq, zero_add]
  rw [Finset.sum_eq_multiset_sum, Finset.range_val, ← Multiset.coe_range, Multiset.map_coe,
    Multiset.sum_coe]

/-- **Specification** of one start: from all-maximal distances, k-means++ with the draws `w` leads to
the state `s`, which satisfies C29. -/
def StartGives [Field D] [LinearOrder D] (dist : Row R n → Row R n → D) (big : D)
    (data : Nat → Row R n) (N nt T : Nat) (todo : Nat → List Nat) (w : Draws D) (s : Kpp R D k n) :
    Prop :=
  ∃ s0, (∀ r, r < N → (s0.slots r).dist = big) ∧
    kpp dist data N nt T todo w.sched w.first w.u s0 = .ok s ∧ KppOk dist data N s

/-- **Specification** of the energy of a set of centres: the sum over the rows of the distance to the
nearest centre. -/
def IsEnergy [AddCommMonoid D] [LE D] (dist : Row R n → Row R n → D) (data : Nat → Row R n) (N : Nat)
    (cents : Fin k → Row R n) (e : D) : Prop :=
  ∃ near : Nat → Fin k, (∀ r, r < N → IsNearest (fun c => dist (data r) (cents c)) (near r)) ∧
    e = ∑ r ∈ range N, dist (data r) (cents (near r))

theorem isEnergy_of_ok [AddCommMonoid D] [LE D] [Inhabited (Fin k)] {dist : Row R n → Row R n → D}
    {data : Nat → Row R n} {N : Nat} {s : Kpp R D k n} (h : KppOk dist data N s) :
    IsEnergy dist data N s.cltrs.means (∑ r ∈ range N, (s.slots r).dist) := by
  have hx : ∀ r, ∃ c, r < N → (s.slots r).dist = dist (data r) (s.cltrs.means c) ∧
      IsNearest (fun c => dist (data r) (s.cltrs.means c)) c := by
    intro r
    by_cases hr : r < N
    · obtain ⟨c, _, h2, h3⟩ := h.nearest r hr
      exact ⟨c, fun _ => ⟨h2, h3⟩⟩
    · exact ⟨default, fun h => absurd h hr⟩
  choose near hnear using hx
  refine ⟨near, fun r hr => (hnear r hr).2, ?_⟩
  apply Finset.sum_congr rfl
  intro r hr
  exact (hnear r (Finset.mem_range.1 hr)).1

/-- The outcome of the driver over starts `0 .. m-1`: `st i` is the state of start `i`. -/
structure Best [Field D] [LinearOrder D] (dist : Row R n → Row R n → D) (data : Nat → Row R n)
    (N m : Nat) (st : Nat → Kpp R D k n) (best : Nat × D × Copy R k n) : Prop where
  index : 1 ≤ best.1 ∧ best.1 ≤ m
  energy : best.2.1 = ∑ r ∈ range N, ((st (best.1 - 1)).slots r).dist
  min : ∀ i, i < m → best.2.1 ≤ ∑ r ∈ range N, ((st i).slots r).dist
  first : ∀ i, i < best.1 - 1 → best.2.1 < ∑ r ∈ range N, ((st i).slots r).dist
  copy : best.2.2 = ⟨fun r => ((st (best.1 - 1)).slots r).assign,
    fun c => (Spec.count N (fun r => ((st (best.1 - 1)).slots r).assign) c : Int),
    (st (best.1 - 1)).cltrs.means⟩

section
variable [Zero R] [Field D] [LinearOrder D] [IsStrictOrderedRing D]
  {dist : Row R n → Row R n → D} {big : D} {data : Nat → Row R n} {N nt T : Nat}
  {todo : Nat → List Nat}

omit [Zero R] in
theorem init_ok (hpos : ∀ q r, q < N → r < N → 0 ≤ dist (data q) (data r))
    (hself : ∀ r, r < N → dist (data r) (data r) = 0)
    (hsp : Split N T todo) (hk : 0 < k) (hn : 0 < N) (hnt : 0 < nt) (hlt : N < 4294967296)
    {w : Draws D} (hc : ∀ i, Complete T todo (w.sched i)) (hf : w.first < N)
    (hu : ∀ i, 0 ≤ w.u i ∧ w.u i ≤ 1) (hbig : ∀ r, r < N → dist (data r) (data w.first) < big)
    {keeps : Bool} {s : St R D k n} (hkeep : keeps = true ∨ N ≤ s.asize)
    (hs : ∀ r, r < N → (s.kpp.slots r).dist = big) :
    ∃ p, St.init keeps dist data N nt T todo w s = .ok { s with kpp := p } ∧
      StartGives dist big data N nt T todo w p := by
  obtain ⟨p, e, h1, _⟩ := C29_kmeanspp dist big data N nt T todo
    hpos hself hsp hk hn hnt hlt w.sched
    hc w.first hf w.u hu hbig s.kpp hs
  refine ⟨p, ?_, s.kpp, hs, e, h1⟩
  unfold St.init
  rw [if_neg, e]
  rcases hkeep with rfl | h
  · simp
  · simp only [Bool.and_eq_true, Bool.not_eq_true', decide_eq_true_eq, not_and, not_lt]
    exact fun _ => h

theorem startLoop_spec (hpos : ∀ q r, q < N → r < N → 0 ≤ dist (data q) (data r))
    (hself : ∀ r, r < N → dist (data r) (data r) = 0)
    (hsp : Split N T todo) (hk : 0 < k) (hn : 0 < N) (hnt : 0 < nt) (hlt : N < 4294967296)
    {w : Nat → Draws D} (hc : ∀ j i, Complete T todo ((w j).sched i)) (hf : ∀ j, (w j).first < N)
    (hu : ∀ j i, 0 ≤ (w j).u i ∧ (w j).u i ≤ 1)
    (hbig : ∀ j r, r < N → dist (data r) (data (w j).first) < big) :
    ∀ (len m : Nat) (st : Nat → Kpp R D k n) (s : St R D k n) (best : Nat × D × Copy R k n),
      Best dist data N m st best →
      (∀ i, i < m → StartGives dist big data N nt T todo (w i) (st i)) →
      ∃ st' best', startLoop true dist big data N nt T todo w (List.range' m len) s best = .ok best' ∧
        Best dist data N (m + len) st' best' ∧
        ∀ i, i < m + len → StartGives dist big data N nt T todo (w i) (st' i) := by
  intro len
  induction len with
  | zero =>
    intro m st s best hb hst
    exact ⟨st, best, rfl, hb, hst⟩
  | succ len ih =>
    intro m st s best hb hst
    obtain ⟨p, e1, e2⟩ := init_ok (keeps := true) hpos hself hsp hk hn hnt hlt (hc m) (hf m) (hu m)
      (hbig m) (s := { kpp := { cltrs := Clusters.empty
                                slots := fun r => if r < N then { s.kpp.slots r with dist := big }
                                  else s.kpp.slots r }
                       asize := 0
                       counts := fun _ => 0 }) (Or.inl rfl) (by
        intro r hr
        simp [hr])
    have hok : KppOk dist data N p := e2.choose_spec.2.2
    have et := tally_ok (N := N) (s := (⟨p, 0, fun _ => 0⟩ : St R D k n)) fun r hr => by
      obtain ⟨c, h, _⟩ := hok.nearest r hr
      exact ⟨c, h⟩
    obtain ⟨st', best', f1, f2, f3⟩ := ih (m + 1) (Function.update st m p) _
      (if (⟨p, 0, fun c => 0 + (Spec.count N (fun r => (p.slots r).assign) c : Int)⟩ :
          St R D k n).energy N < best.2.1 then
        (m + 1, (⟨p, 0, fun c => 0 + (Spec.count N (fun r => (p.slots r).assign) c : Int)⟩ :
          St R D k n).energy N,
          (⟨p, 0, fun c => 0 + (Spec.count N (fun r => (p.slots r).assign) c : Int)⟩ :
            St R D k n).dump)
        else best) (by
      obtain ⟨⟨b1, b2⟩, b3, b4, b5, b6⟩ := hb
      have hold : ∀ i, i < m → Function.update st m p i = st i := fun i hi =>
        Function.update_of_ne (by omega) _ _
      rw [energy_eq]
      split
      · rename_i hlt
        constructor
        · simp
        · simp [Function.update_self]
        · intro i hi
          by_cases him : i = m
          · subst him; simp [Function.update_self]
          · rw [hold i (by omega)]
            exact le_trans (le_of_lt hlt) (b4 i (by omega))
        · intro i hi
          simp only [Nat.add_sub_cancel] at hi
          rw [hold i hi]
          exact lt_of_lt_of_le hlt (b4 i hi)
        · simp [Function.update_self, St.dump]
      · rename_i hlt
        rw [not_lt] at hlt
        constructor
        · exact ⟨b1, by omega⟩
        · rw [hold _ (by omega)]; exact b3
        · intro i hi
          by_cases him : i = m
          · subst him; simpa [Function.update_self] using hlt
          · rw [hold i (by omega)]
            exact b4 i (by omega)
        · intro i hi
          rw [hold i (by omega)]
          exact b5 i hi
        · rw [hold _ (by omega)]; exact b6) (by
      intro i hi
      by_cases him : i = m
      · subst him; rw [Function.update_self]; exact e2
      · rw [Function.update_of_ne him]; exact hst i (by omega))
    refine ⟨st', best', ?_, ?_, ?_⟩
    · rw [List.range'_succ]
      unfold startLoop
      unfold St.reinit
      rw [e1]
      simp only
      rw [et]
      exact f1
    · rw [show m + (len + 1) = m + 1 + len by omega]; exact f2
    · rw [show m + (len + 1) = m + 1 + len by omega]; exact f3

/-- **C52, partial.**  With a library whose `clear` keeps a vector's storage, or with a single start, for every
data set, number of starts, draws, division of the rows among workers and interleaving: the driver returns
normally; there are states `st i`, each the outcome of start `i`, such that
* the reported index is that of a start with the lowest energy, the first such one,
* the reported energy is the sum over the rows of the distance to the nearest of that start's centres,
* assignments, cluster sizes and centroids in the result are that start's.
Missing: the language rule under which the second start is undefined (`C52_violated`). -/
theorem C52_best_start_partial (hpos : ∀ q r, q < N → r < N → 0 ≤ dist (data q) (data r))
    (hself : ∀ r, r < N → dist (data r) (data r) = 0)
    (hsp : Split N T todo) (hk : 0 < k) (hn : 0 < N) (hnt : 0 < nt) (hlt : N < 4294967296)
    (w : Nat → Draws D) (hc : ∀ j i, Complete T todo ((w j).sched i)) (hf : ∀ j, (w j).first < N)
    (hu : ∀ j i, 0 ≤ (w j).u i ∧ (w j).u i ≤ 1)
    (hbig : ∀ j r, r < N → dist (data r) (data (w j).first) < big) (nstart : Nat)
    (hns : 0 < nstart) (keeps : Bool) (hkeep : keeps = true ∨ nstart = 1) :
    ∃ (idx : Nat) (e : D) (c : Copy R k n) (st : Nat → Kpp R D k n) (en : Nat → D),
      kmeansPP keeps dist big data N nt T todo w nstart = .ok (idx, e, c) ∧
      (∀ i, i < nstart → StartGives dist big data N nt T todo (w i) (st i) ∧
        IsEnergy dist data N (st i).cltrs.means (en i)) ∧
      1 ≤ idx ∧ idx ≤ nstart ∧
      e = en (idx - 1) ∧ (∀ i, i < nstart → e ≤ en i) ∧ (∀ i, i < idx - 1 → e < en i) ∧
      c.means = (st (idx - 1)).cltrs.means ∧
      c.assign = (fun r => ((st (idx - 1)).slots r).assign) ∧
      ∀ cl, c.counts cl = (Spec.count N c.assign cl : Int) := by
  obtain ⟨p, e1, e2⟩ := init_ok (keeps := keeps) hpos hself hsp hk hn hnt hlt (hc 0) (hf 0) (hu 0)
    (hbig 0) (s := fresh big N) (Or.inr (le_refl _)) (fun r _ => rfl)
  have hok : KppOk dist data N p := e2.choose_spec.2.2
  have hass : ∀ r, r < N → ∃ c, (p.slots r).assign = some c := fun r hr => by
    obtain ⟨c, h, _⟩ := hok.nearest r hr
    exact ⟨c, h⟩
  have et := tally_ok (N := N) (s := (⟨p, N, fun _ => 0⟩ : St R D k n)) hass
  have et2 := tally_ok (N := N) (s := (⟨p, N, fun c => 0 +
    (Spec.count N (fun r => (p.slots r).assign) c : Int)⟩ : St R D k n)) hass
  obtain ⟨st, ⟨idx, e, c⟩, f1, f2, f3⟩ := startLoop_spec (big := big) hpos hself hsp hk hn hnt hlt hc
    hf hu hbig (nstart - 1) 1 (fun _ => p)
    (⟨p, N, fun c => 0 + (Spec.count N (fun r => (p.slots r).assign) c : Int) +
      (Spec.count N (fun r => (p.slots r).assign) c : Int)⟩ : St R D k n)
    (1, (⟨p, N, fun c => 0 + (Spec.count N (fun r => (p.slots r).assign) c : Int) +
      (Spec.count N (fun r => (p.slots r).assign) c : Int)⟩ : St R D k n).energy N,
      (⟨p, N, fun c => 0 + (Spec.count N (fun r => (p.slots r).assign) c : Int)⟩ :
        St R D k n).dump) (by
      constructor
      · simp
      · rw [energy_eq]
      · intro i _; rw [energy_eq]
      · intro i hi; simp at hi
      · simp [St.dump]) (by
      intro i hi
      have : i = 0 := by omega
      subst this
      exact e2)
  rw [show 1 + (nstart - 1) = nstart by omega] at f2 f3
  obtain ⟨⟨b1, b2⟩, b3, b4, b5, b6⟩ := f2
  simp only at b1 b2 b3 b4 b5 b6
  have : Inhabited (Fin k) := ⟨⟨0, hk⟩⟩
  refine ⟨idx, e, c, st, fun i => ∑ r ∈ range N, ((st i).slots r).dist, ?_, ?_, b1, b2, b3, b4, b5,
    by rw [b6], by rw [b6], ?_⟩
  · unfold kmeansPP
    rw [e1]
    simp only
    unfold fresh
    simp only
    rw [et]
    simp only
    rw [et2]
    rcases hkeep with rfl | h1
    · exact f1
    · rw [h1] at f1 ⊢
      exact f1
  · intro i hi
    exact ⟨f3 i hi, isEnergy_of_ok (f3 i hi).choose_spec.2.2⟩
  · intro cl
    rw [b6]

/-- **C52 is violated** under the language's rule: `reinit` clears `cluster_assignments`, so every
second start indexes an empty vector, whatever the data and the draws. -/
theorem C52_violated (hpos : ∀ q r, q < N → r < N → 0 ≤ dist (data q) (data r))
    (hself : ∀ r, r < N → dist (data r) (data r) = 0)
    (hsp : Split N T todo) (hk : 0 < k) (hn : 0 < N) (hnt : 0 < nt) (hlt : N < 4294967296)
    (w : Nat → Draws D) (hc : ∀ j i, Complete T todo ((w j).sched i)) (hf : ∀ j, (w j).first < N)
    (hu : ∀ j i, 0 ≤ (w j).u i ∧ (w j).u i ≤ 1)
    (hbig : ∀ j r, r < N → dist (data r) (data (w j).first) < big) (nstart : Nat)
    (hns : 2 ≤ nstart) :
    kmeansPP (R := R) (k := k) false dist big data N nt T todo w nstart = .error .ub := by
  obtain ⟨p, e1, e2⟩ := init_ok (k := k) (keeps := false) hpos hself hsp hk hn hnt hlt (hc 0) (hf 0)
    (hu 0) (hbig 0) (s := fresh big N) (Or.inr (le_refl _)) (fun r _ => rfl)
  have hok : KppOk dist data N p := e2.choose_spec.2.2
  have hass : ∀ r, r < N → ∃ c, (p.slots r).assign = some c := fun r hr => by
    obtain ⟨c, h, _⟩ := hok.nearest r hr
    exact ⟨c, h⟩
  have et := tally_ok (N := N) (s := (⟨p, N, fun _ => 0⟩ : St R D k n)) hass
  have et2 := tally_ok (N := N) (s := (⟨p, N, fun c => 0 +
    (Spec.count N (fun r => (p.slots r).assign) c : Int)⟩ : St R D k n)) hass
  unfold kmeansPP
  rw [e1]
  simp only
  unfold fresh
  simp only
  rw [et]
  simp only
  rw [et2]
  simp only
  rw [show nstart - 1 = (nstart - 2) + 1 by omega, List.range'_succ]
  unfold startLoop St.reinit St.init
  simp [hn]

end

/-! A run with three starts of which the second is the best. -/

/-- What the witness shows. -/
structure SeenBest where
  idx : Nat
  energy : ℚ
  assign : List (Option (Fin 2))
  counts : List Int
  means : List ℚ
  deriving DecidableEq, Repr

/-- Draws of the three starts. -/
def wit (i : Nat) : Draws ℚ := ⟨if i = 1 then 2 else 1, fun _ => 0, fun _ => [1, 0, 1, 1, 0]⟩

/-- Run the witness. -/
def showBest (m : Nat) : Res SeenBest :=
  match kmeansPP (R := ℚ) (k := 2) true abs1 1000 rows5 5 2 2 (Kmeans.threadRows 5 2) wit m with
  | .error e => .error e
  | .ok (i, e, c) => .ok ⟨i, e, (List.range 5).map c.assign, (List.finRange 2).map c.counts,
      (List.finRange 2).map fun x => c.means x 0⟩

example : showBest 1 = .ok ⟨1, 30, [some 1, some 0, some 0, some 0, some 0], [4, 1], [1, 0]⟩ := by
  decide +kernel

example : showBest 3 = .ok ⟨2, 4, [some 1, some 1, some 0, some 0, some 0], [3, 2], [10, 0]⟩ := by
  decide +kernel

/-- The hypotheses of C52 hold for it. -/
example : (∀ q r, q < 5 → r < 5 → 0 ≤ abs1 (rows5 q) (rows5 r)) ∧ (∀ r, r < 5 → abs1 (rows5 r) (rows5 r) = 0) ∧
    Split 5 2 (Kmeans.threadRows 5 2) ∧
    (∀ j i, Complete 2 (Kmeans.threadRows 5 2) ((wit j).sched i)) ∧ (∀ j, (wit j).first < 5) ∧
    (∀ j i, 0 ≤ (wit j).u i ∧ (wit j).u i ≤ 1) ∧
    (∀ j r, r < 5 → abs1 (rows5 r) (rows5 (wit j).first) < 1000) := by
  refine ⟨?_, ?_, ?_, ?_, ?_, ?_, ?_⟩
  · intro q r _ _; unfold abs1; split <;> linarith
  · intro r _; unfold abs1; simp
  · exact (C29_both_engines 5 2 (by decide) (by decide) (by decide)).1
  · intro j i
    show Complete 2 (Kmeans.threadRows 5 2) [1, 0, 1, 1, 0]
    intro t ht
    have : t = 0 ∨ t = 1 := by omega
    rcases this with rfl | rfl <;> (clear ht; decide)
  · intro j; unfold wit; dsimp only; split <;> decide
  · intro j i; unfold wit; norm_num
  · intro j r hr
    have hj : (wit j).first = 1 ∨ (wit j).first = 2 := by
      unfold wit; dsimp only; split <;> simp
    have : r = 0 ∨ r = 1 ∨ r = 2 ∨ r = 3 ∨ r = 4 := by omega
    rcases hj with hj | hj <;> rw [hj] <;>
      rcases this with rfl | rfl | rfl | rfl | rfl <;> decide +kernel

end Knor.MultiStart
