import Verif.Model.Init
import Verif.Lemmas.Distr
import Verif.Lemmas.Prune
import Verif.Spec.Seeding

namespace Knor.Init

open Knor Knor.Par Knor.Partition Knor.Spec

variable {R D S α : Type _} {k n : Nat}

/-! ### Generators -/

theorem skip_add (draw : S → α × S) (a b : Nat) : ∀ s, skip draw b (skip draw a s) = skip draw (a + b) s := by
  induction a with
  | zero => intro s; rw [Nat.zero_add]; rfl
  | succ a ih => intro s; rw [Nat.succ_add]; exact ih _

theorem outputs_get (next : S → α × S) (m : Nat) : ∀ s i, i < m →
    (outputs next m s)[i]? = some (next (skip next i s)).1 := by
  induction m with
  | zero => intro s i h; omega
  | succ m ih =>
    intro s i h
    cases i with
    | zero => rfl
    | succ i => simp only [outputs, List.getElem?_cons_succ]; exact ih _ i (by omega)

theorem outputs_length (next : S → α × S) (m : Nat) : ∀ s, (outputs next m s).length = m := by
  induction m with
  | zero => intro s; rfl
  | succ m ih => intro s; simp [outputs, ih]

theorem skip_mpiNext (draw : S → α × S) {np : Nat} (hnp : 0 < np) (i : Nat) : ∀ s,
    skip (mpiNext draw np) i s = skip draw (i * np) s := by
  induction i with
  | zero => intro s; rw [Nat.zero_mul]; rfl
  | succ i ih =>
    intro s
    simp only [skip]
    rw [ih]
    unfold mpiNext
    simp only
    rw [skip_add, show (i + 1) * np = (np - 1 + i * np) + 1 by
      rw [Nat.succ_mul]; omega]
    rfl

/-! ### Reading a row -/

theorem thdRow_ok {data : Nat → Row R n} {N nt r : Nat} (hnt : 0 < nt) (hr : r < N)
    (hlt : N < 4294967296) : thdRow data N nt r = .ok (data r) := by
  obtain ⟨h1, h2, h3⟩ := getThdData_spec hnt hr hlt
  unfold thdRow
  simp only
  rw [if_pos ⟨h1, h2⟩]
  unfold localData
  rw [h3]

theorem owner_spec {g np r : Nat} (hnp : 0 < np) (hr : r < g) (hg : g < 18446744073709551616) :
    ∃ p l, p < np ∧ l < procNrow g np p ∧ r = Distr.off g np p + l ∧
      isLocal g np p r = true ∧ localRid g np p r = .ok l ∧
      ∀ p', p' < np → p' ≠ p → isLocal g np p' r = false := by
  obtain ⟨p, l, hp, hl, e⟩ := Distr.exists_off (g := g) hnp hr
  have he : r = p * (g / np) + l := e
  have hloc : isLocal g np p r = true := by
    rw [isLocal_iff hg hp hr]; omega
  refine ⟨p, l, hp, hl, e, hloc, ?_, ?_⟩
  · unfold localRid
    have hoff := offset_le (g := g) hp
    simp only
    rw [sub64_of_le (by omega : r < 18446744073709551616) (by omega)]
    rw [if_neg (by omega)]
    congr 1
    omega
  · intro p' hp' hne
    by_contra hcon
    rw [Bool.not_eq_false] at hcon
    rw [isLocal_iff hg hp' hr] at hcon
    obtain ⟨h1, h2⟩ := nodup_flatMap_disjoint
      ((Distr.split_procs (g := g) hnp).perm.symm.nodup List.nodup_range)
    refine hne (h2 p' (List.mem_range.2 hp') p (List.mem_range.2 hp) r ?_ ?_)
    · rw [if_pos hp', List.mem_range'_1]; exact hcon
    · rw [if_pos hp, List.mem_range'_1]
      unfold Distr.off; omega

/-- Local rows are the rank's part of the data. -/
theorem local_spec {g np p r : Nat} (hp : p < np) (hr : r < g) (hg : g < 18446744073709551616)
    (h : isLocal g np p r = true) :
    ∃ l, localRid g np p r = .ok l ∧ l < procNrow g np p ∧ r = Distr.off g np p + l := by
  obtain ⟨p', l, h1, h2, h3, _, h5, h6⟩ := owner_spec (g := g) (np := np) (by omega) hr hg
  have : p = p' := by
    by_contra hne
    have := h6 p hp hne
    rw [h] at this
    simp at this
  subst this
  exact ⟨l, h5, h2, h3⟩

/-! ### Forgy -/

theorem forgyLoop_spec (draw : S → Nat × S) {data : Nat → Row R n} {N nt : Nat} (hnt : 0 < nt)
    (hlt : N < 4294967296) (hd : ∀ s, (draw s).1 < N) (l : List (Fin k)) (hl : l.Nodup) :
    ∀ s (c : Clusters R k n), ∃ c', forgyLoop draw data N nt l s c = .ok c' ∧
      (∀ i x, l[i]? = some x → c'.means x = data (draw (skip draw i s)).1) ∧
      (∀ x, x ∉ l → c'.means x = c.means x) ∧ c'.num = c.num ∧ c'.complete = c.complete := by
  induction l with
  | nil => intro s c; exact ⟨c, rfl, by simp, fun _ _ => rfl, rfl, rfl⟩
  | cons a l ih =>
    intro s c
    rw [List.nodup_cons] at hl
    obtain ⟨c', e, h1, h2, h3, h4⟩ := ih hl.2 (draw s).2 (c.setMean (data (draw s).1) a)
    refine ⟨c', ?_, ?_, ?_, h3, h4⟩
    · unfold forgyLoop
      rw [thdRow_ok hnt (hd s) hlt]
      exact e
    · intro i x hx
      cases i with
      | zero =>
        simp only [List.getElem?_cons_zero, Option.some.injEq] at hx
        subst hx
        rw [h2 a hl.1]
        simp [Clusters.setMean, skip]
      | succ i =>
        simp only [List.getElem?_cons_succ] at hx
        exact h1 i x hx
    · intro x hx
      simp only [List.mem_cons, not_or] at hx
      rw [h2 x hx.2]
      simp [Clusters.setMean, Function.update_of_ne hx.1]

theorem forgyLoopDist_spec (draw : S → Nat × S) {data : Nat → Row R n} {g np p nt : Nat}
    (hp : p < np) (hnt : 0 < nt) (hlt : g < 4294967296) (hd : ∀ s, (draw s).1 < g)
    (l : List (Fin k)) (hl : l.Nodup) :
    ∀ s (c : Clusters R k n), ∃ c', forgyLoopDist draw data g np p nt l s c = .ok c' ∧
      (∀ i x, l[i]? = some x → c'.means x =
        if isLocal g np p (draw (skip draw i s)).1 then data (draw (skip draw i s)).1
        else c.means x) ∧
      (∀ x, x ∉ l → c'.means x = c.means x) ∧ c'.num = c.num ∧ c'.complete = c.complete := by
  induction l with
  | nil => intro s c; exact ⟨c, rfl, by simp, fun _ _ => rfl, rfl, rfl⟩
  | cons a l ih =>
    intro s c
    rw [List.nodup_cons] at hl
    by_cases hloc : isLocal g np p (draw s).1 = true
    · obtain ⟨r, e1, e2, e3⟩ := local_spec hp (hd s) (by omega) hloc
      have hle := Distr.procNrow_le (g := g) hp
      obtain ⟨c', e, h1, h2, h3, h4⟩ := ih hl.2 (draw s).2 (c.setMean (data (draw s).1) a)
      refine ⟨c', ?_, ?_, ?_, h3, h4⟩
      · unfold forgyLoopDist
        rw [if_pos hloc, e1]
        simp only
        rw [thdRow_ok hnt e2 (by omega)]
        simp only
        have : Distr.procData data g np p r = data (draw s).1 := by rw [e3]; rfl
        rw [this]
        exact e
      · intro i x hx
        cases i with
        | zero =>
          simp only [List.getElem?_cons_zero, Option.some.injEq] at hx
          subst hx
          rw [h2 a hl.1]
          simp [Clusters.setMean, skip, hloc]
        | succ i =>
          simp only [List.getElem?_cons_succ] at hx
          have hne : x ≠ a := by
            intro h; subst h; exact hl.1 (List.mem_of_getElem? hx)
          rw [h1 i x hx]
          have : (c.setMean (data (draw s).1) a).means x = c.means x :=
            Function.update_of_ne hne _ _
          rw [this]
          rfl
      · intro x hx
        simp only [List.mem_cons, not_or] at hx
        rw [h2 x hx.2]
        simp [Clusters.setMean, Function.update_of_ne hx.1]
    · obtain ⟨c', e, h1, h2, h3, h4⟩ := ih hl.2 (draw s).2 c
      refine ⟨c', ?_, ?_, ?_, h3, h4⟩
      · unfold forgyLoopDist
        rw [if_neg hloc]
        exact e
      · intro i x hx
        cases i with
        | zero =>
          simp only [List.getElem?_cons_zero, Option.some.injEq] at hx
          subst hx
          rw [h2 a hl.1]
          simp [skip, hloc]
        | succ i =>
          simp only [List.getElem?_cons_succ] at hx
          exact h1 i x hx
      · intro x hx
        simp only [List.mem_cons, not_or] at hx
        exact h2 x hx.2

/-! ### Random partition -/

theorem randomLoop_spec [AddCommMonoid R] (draw : S → Fin k × S) {data : Nat → Row R n}
    {N nt : Nat} (hnt : 0 < nt) (hlt : N < 4294967296) (m : Nat) :
    ∀ st s (c : Clusters R k n) a, st + m ≤ N →
    ∃ c' a', randomLoop draw data N nt (List.range' st m) s c a = .ok (c', a') ∧
      (∀ i, i < m → a' (st + i) = some (draw (skip draw i s)).1) ∧
      (∀ r, r < st ∨ st + m ≤ r → a' r = a r) ∧
      c'.complete = c.complete ∧
      (∀ x j, c'.means x j = c.means x j + ∑ i ∈ Finset.range m,
        if (draw (skip draw i s)).1 = x then data (st + i) j else 0) ∧
      (∀ x, c'.num x = c.num x + ∑ i ∈ Finset.range m,
        if (draw (skip draw i s)).1 = x then (1 : Int) else 0) := by
  induction m with
  | zero =>
    intro st s c a _
    exact ⟨c, a, rfl, fun i h => by omega, fun _ _ => rfl, rfl, by simp, by simp⟩
  | succ m ih =>
    intro st s c a hle
    obtain ⟨c', a', e, h1, h2, h3, h4, h5⟩ := ih (st + 1) (draw s).2
      (c.addMember (data st) (draw s).1) (Function.update a st (some (draw s).1)) (by omega)
    refine ⟨c', a', ?_, ?_, ?_, h3, ?_, ?_⟩
    · rw [List.range'_succ]
      unfold randomLoop
      rw [thdRow_ok hnt (by omega) hlt]
      exact e
    · intro i hi
      cases i with
      | zero => rw [Nat.add_zero, h2 st (by omega), Function.update_self]; rfl
      | succ i =>
        have := h1 i (by omega)
        rw [show st + (i + 1) = st + 1 + i by omega, this]; rfl
    · intro r hr
      rw [h2 r (by omega), Function.update_of_ne (by omega)]
    · intro x j
      rw [h4, Finset.sum_range_succ']
      have e1 : ∀ i, st + 1 + i = st + (i + 1) := fun i => by omega
      simp only [e1]
      have : (c.addMember (data st) (draw s).1).means x j
          = c.means x j + if (draw s).1 = x then data st j else 0 := by
        unfold Clusters.addMember
        by_cases hx : (draw s).1 = x
        · subst hx; simp
        · simp only; rw [Function.update_of_ne (Ne.symm hx), if_neg hx, add_zero]
      rw [this, add_assoc, add_comm (if (draw s).1 = x then data st j else 0)]
      rfl
    · intro x
      rw [h5, Finset.sum_range_succ']
      have : (c.addMember (data st) (draw s).1).num x
          = c.num x + if (draw s).1 = x then 1 else 0 := by
        unfold Clusters.addMember
        by_cases hx : (draw s).1 = x
        · subst hx; simp
        · simp only; rw [Function.update_of_ne (Ne.symm hx), if_neg hx, add_zero]
      rw [this, add_assoc, add_comm (if (draw s).1 = x then (1 : Int) else 0)]
      rfl

/-! ### k-means++ -/

/-- A slot after the pass for a centre at distance `d`. -/
def newSlot [LT D] [DecidableLT D] (d : D) (ci : Fin k) (m : KppSlot D k) : KppSlot D k :=
  if d < m.dist then ⟨d, some ci⟩ else m

theorem kppPass_spec [AddCommMonoid D] [LinearOrder D] {dist : Row R n → Row R n → D}
    {data : Nat → Row R n} {N T : Nat} {todo : Nat → List Nat} {sched : List Nat} {ci : Fin k}
    {s : Kpp R D k n} (hsp : Split N T todo) (hc : Complete T todo sched) :
    ∃ s' total, kppPass dist data T todo sched ci s = .ok (s', total) ∧ s'.cltrs = s.cltrs ∧
      (∀ r, r < N → s'.slots r = newSlot (dist (data r) (s.cltrs.means ci)) ci (s.slots r)) ∧
      (∀ r, N ≤ r → s'.slots r = s.slots r) ∧
      total = ∑ r ∈ Finset.range N, (s'.slots r).dist := by
  obtain ⟨q, e, h1, h2, h3⟩ := run_det (α := D)
    (f := kppRow dist data s.cltrs.means ci)
    (g := fun r m => .ok (newSlot (dist (data r) (s.cltrs.means ci)) ci m))
    (h := fun _ _ m' a => a + m'.dist) (fun r m a => rfl)
    (s0 := { mem := s.slots, acc := fun _ => (0 : D), todo := todo }) hsp hc
    (fun r _ => ⟨_, rfl⟩)
  refine ⟨{ s with slots := q.mem }, (List.range T).foldl (fun m t => m + q.acc t) 0, ?_, rfl, ?_,
    h2, ?_⟩
  · unfold kppPass; rw [e]
  · intro r hr
    have := h1 r hr
    simp only [Except.ok.injEq] at this
    exact this.symm
  · rw [Kmeans.foldl_add2, zero_add, ← hsp.sum]
    congr 1
    apply List.map_congr_left
    intro t _
    rw [h3 t]
    simp only
    rw [Kmeans.foldl_add2, zero_add]

theorem select_spec [Field D] [LinearOrder D] [IsStrictOrderedRing D] (d : Nat → D) (m : Nat) :
    ∀ st x, 0 < m → x ≤ ∑ i ∈ Finset.range m, d (st + i) →
    ∃ r y, select d (List.range' st m) x = (some r, y) ∧ y ≤ 0 ∧ st ≤ r ∧ r < st + m ∧
      y = x - ∑ i ∈ Finset.range (r - st + 1), d (st + i) ∧
      ∀ j, st ≤ j → j < r → 0 < x - ∑ i ∈ Finset.range (j - st + 1), d (st + i) := by
  induction m with
  | zero => intro st x h; omega
  | succ m ih =>
    intro st x _ hx
    rw [List.range'_succ]
    unfold select
    by_cases h0 : x - d st ≤ 0
    · rw [if_pos h0]
      refine ⟨st, x - d st, rfl, h0, le_refl _, by omega, ?_, fun j h1 h2 => by omega⟩
      rw [Nat.sub_self, Finset.sum_range_one, Nat.add_zero]
    · rw [if_neg h0]
      have hmpos : 0 < m := by
        rcases Nat.eq_zero_or_pos m with rfl | h
        · exfalso
          rw [Nat.zero_add, Finset.sum_range_one, Nat.add_zero] at hx
          exact h0 (by linarith)
        · exact h
      have hsum : ∀ q, ∑ i ∈ Finset.range (q + 1), d (st + i)
          = d st + ∑ i ∈ Finset.range q, d (st + 1 + i) := by
        intro q
        rw [Finset.sum_range_succ', Nat.add_zero, add_comm]
        congr 1
        apply Finset.sum_congr rfl
        intro i _
        congr 1
        omega
      obtain ⟨r, y, e, h1, h2, h3, h4, h5⟩ := ih (st + 1) (x - d st) hmpos
        (by rw [hsum] at hx; linarith)
      refine ⟨r, y, e, h1, by omega, by omega, ?_, ?_⟩
      · rw [h4, hsum, show r - st = r - (st + 1) + 1 by omega]
        ring
      · intro j hj1 hj2
        rw [hsum]
        by_cases hj : j = st
        · subst hj
          rw [Nat.sub_self, Finset.sum_range_zero, add_zero]
          exact lt_of_not_ge h0
        · have := h5 j (by omega) hj2
          rw [show j - st = j - (st + 1) + 1 by omega]
          linarith

theorem randDiv_ge [Field D] [LinearOrder D] [IsStrictOrderedRing D] : (1 : D) ≤ randDiv := by
  unfold randDiv
  exact_mod_cast (by norm_num : 1 ≤ 2147483646)

theorem threshold_le [Field D] [LinearOrder D] [IsStrictOrderedRing D] {total u : D}
    (ht : 0 ≤ total) (h0 : 0 ≤ u) (h1 : u ≤ 1) : threshold total u ≤ total ∧ 0 ≤ threshold total u := by
  have hr := randDiv_ge (D := D)
  have hpos : (0 : D) < randDiv := lt_of_lt_of_le one_pos hr
  unfold threshold
  constructor
  · rw [div_le_iff₀ hpos]
    nlinarith [mul_nonneg ht h0, mul_nonneg ht (sub_nonneg.2 h1), mul_nonneg ht (sub_nonneg.2 hr)]
  · exact div_nonneg (mul_nonneg ht h0) hpos.le

/-- State at the beginning of a round: `ci` was just chosen, `rest` is still to choose. -/
structure Pre [Field D] [LinearOrder D] (dist : Row R n → Row R n → D) (data : Nat → Row R n)
    (N : Nat) (rest : List (Fin k)) (ci : Fin k) (s : Kpp R D k n) : Prop where
  rows : ∀ c, c ∉ rest → ∃ r, r < N ∧ s.cltrs.means c = data r
  le : ∀ r, r < N → ∀ c, c ∉ rest → c ≠ ci →
    (s.slots r).dist ≤ dist (data r) (s.cltrs.means c)
  val : ∀ r, r < N → dist (data r) (s.cltrs.means ci) < (s.slots r).dist ∨
    ∃ c, c ∉ rest ∧ (s.slots r).assign = some c ∧
      (s.slots r).dist = dist (data r) (s.cltrs.means c)

/-- State after the pass for `ci`. -/
structure Post [Field D] [LinearOrder D] (dist : Row R n → Row R n → D) (data : Nat → Row R n)
    (N : Nat) (rest : List (Fin k)) (s : Kpp R D k n) : Prop where
  rows : ∀ c, c ∉ rest → ∃ r, r < N ∧ s.cltrs.means c = data r
  le : ∀ r, r < N → ∀ c, c ∉ rest → (s.slots r).dist ≤ dist (data r) (s.cltrs.means c)
  val : ∀ r, r < N → ∃ c, c ∉ rest ∧ (s.slots r).assign = some c ∧
      (s.slots r).dist = dist (data r) (s.cltrs.means c)

theorem pass_post [Field D] [LinearOrder D] {dist : Row R n → Row R n → D} {data : Nat → Row R n}
    {N : Nat} {rest : List (Fin k)} {ci : Fin k} {s s' : Kpp R D k n} (hci : ci ∉ rest)
    (hpre : Pre dist data N rest ci s) (hcl : s'.cltrs = s.cltrs)
    (hsl : ∀ r, r < N → s'.slots r = newSlot (dist (data r) (s.cltrs.means ci)) ci (s.slots r)) :
    Post dist data N rest s' := by
  refine ⟨by rw [hcl]; exact hpre.rows, ?_, ?_⟩
  · intro r hr c hc
    rw [hsl r hr, hcl]
    unfold newSlot
    by_cases hlt : dist (data r) (s.cltrs.means ci) < (s.slots r).dist
    · rw [if_pos hlt]
      by_cases hcc : c = ci
      · subst hcc; exact le_refl _
      · exact le_trans (le_of_lt hlt) (hpre.le r hr c hc hcc)
    · rw [if_neg hlt]
      by_cases hcc : c = ci
      · subst hcc; exact not_lt.1 hlt
      · exact hpre.le r hr c hc hcc
  · intro r hr
    rw [hsl r hr, hcl]
    unfold newSlot
    by_cases hlt : dist (data r) (s.cltrs.means ci) < (s.slots r).dist
    · rw [if_pos hlt]; exact ⟨ci, hci, rfl, rfl⟩
    · rw [if_neg hlt]
      exact (hpre.val r hr).resolve_left hlt

theorem choose_pre [Field D] [LinearOrder D] {dist : Row R n → Row R n → D}
    {data : Nat → Row R n} {N : Nat} {rest : List (Fin k)} {c : Fin k} {s : Kpp R D k n}
    (hpos : ∀ q r, q < N → r < N → 0 ≤ dist (data q) (data r)) (hself : ∀ r, r < N → dist (data r) (data r) = 0)
    (hc : c ∉ rest) {r : Nat} (hr : r < N)
    (hpost : Post dist data N (c :: rest) s) :
    Pre dist data N rest c (s.choose (data r) r c) := by
  have hold : ∀ c', c' ≠ c → (s.choose (data r) r c).cltrs.means c' = s.cltrs.means c' := fun c' h =>
    Function.update_of_ne h _ _
  have hnew : (s.choose (data r) r c).cltrs.means c = data r := Function.update_self ..
  have hdist : ∀ q, ((s.choose (data r) r c).slots q).dist = (s.slots q).dist := by
    intro q
    unfold Kpp.choose
    simp only
    by_cases hq : q = r
    · subst hq; rw [Function.update_self]
    · rw [Function.update_of_ne hq]
  refine ⟨?_, ?_, ?_⟩
  · intro c' hc'
    by_cases h : c' = c
    · subst h; exact ⟨r, hr, hnew⟩
    · rw [hold c' h]; exact hpost.rows c' (by simp [h, hc'])
  · intro q hq c' hc' h
    rw [hdist, hold c' h]
    exact hpost.le q hq c' (by simp [h, hc'])
  · intro q hq
    rw [hdist]
    by_cases h : q = r
    · subst h
      rw [hnew, hself q hq]
      obtain ⟨c', hc', _, e⟩ := hpost.val q hq
      have hnn : 0 ≤ dist (data q) (s.cltrs.means c') := by
        obtain ⟨w, hw, ew⟩ := hpost.rows c' hc'
        rw [ew]; exact hpos q w hq hw
      rcases lt_or_eq_of_le hnn with h0 | h0
      · left; rw [e]; exact h0
      · right
        refine ⟨c, hc, ?_, ?_⟩
        · simp [Kpp.choose]
        · rw [hnew, hself q hq, e, ← h0]
    · right
      obtain ⟨c', h1, h2, h3⟩ := hpost.val q hq
      simp only [List.mem_cons, not_or] at h1
      refine ⟨c', h1.2, ?_, ?_⟩
      · simp only [Kpp.choose]; rw [Function.update_of_ne h]; exact h2
      · rw [hold c' h1.1, h3]

theorem kppLoop_spec [Field D] [LinearOrder D] [IsStrictOrderedRing D]
    {dist : Row R n → Row R n → D}
    {data : Nat → Row R n} {N nt T : Nat} {todo : Nat → List Nat} {sched : Nat → List Nat}
    {u : Nat → D} (hpos : ∀ q r, q < N → r < N → 0 ≤ dist (data q) (data r))
    (hself : ∀ r, r < N → dist (data r) (data r) = 0)
    (hn : 0 < N) (hnt : 0 < nt) (hlt : N < 4294967296)
    (hsp : Split N T todo) (hc : ∀ i, Complete T todo (sched i)) (hu : ∀ i, 0 ≤ u i ∧ u i ≤ 1)
    (rest : List (Fin k)) :
    ∀ ci s, rest.Nodup → ci ∉ rest → Pre dist data N rest ci s →
    ∃ s', kppLoop dist data N nt T todo sched u rest ci s = .ok s' ∧ Post dist data N [] s' ∧
      (∀ c, c ∉ rest → s'.cltrs.means c = s.cltrs.means c) ∧
      ∀ pre c post, rest = pre ++ c :: post → ∃ r d, s'.cltrs.means c = data r ∧
        MinTo dist data N (fun c' => c' ∉ c :: post) s'.cltrs.means d ∧
        Sampled d N (u ((ci :: pre).getLast (by simp))) r := by
  induction rest with
  | nil =>
    intro ci s _ hci hpre
    obtain ⟨s', total, e, h1, h2, _⟩ := kppPass_spec (dist := dist) (data := data) (ci := ci) (s := s)
      hsp (hc ci)
    refine ⟨s', by unfold kppLoop; rw [e], pass_post hci hpre h1 h2, ?_, ?_⟩
    · intro c _; rw [h1]
    · intro pre c post h; simp at h
  | cons c rest ih =>
    intro ci s hnd hci hpre
    rw [List.nodup_cons] at hnd
    obtain ⟨s', total, e, h1, h2, _, h4⟩ := kppPass_spec (dist := dist) (data := data) (ci := ci)
      (s := s) hsp (hc ci)
    have hpost := pass_post hci hpre h1 h2
    have hnn : ∀ r, r < N → 0 ≤ (s'.slots r).dist := by
      intro r hr
      obtain ⟨c', hc', _, e⟩ := hpost.val r hr
      obtain ⟨w, hw, ew⟩ := hpost.rows c' hc'
      rw [e, ew]; exact hpos r w hr hw
    have htot : 0 ≤ total := by
      rw [h4]; exact Finset.sum_nonneg fun r hr => hnn r (Finset.mem_range.1 hr)
    obtain ⟨r, y, es, k1, k2, k3, k4, k5⟩ := select_spec (fun r => (s'.slots r).dist) N 0
      (threshold total (u ci)) hn (by
        simp only [Nat.zero_add]; rw [← h4]; exact (threshold_le htot (hu ci).1 (hu ci).2).1)
    rw [← List.range_eq_range'] at es
    obtain ⟨s2, e2, g1, g2, g3⟩ := ih c (s'.choose (data r) r c) hnd.2 hnd.1
      (choose_pre hpos hself hnd.1 (by omega) hpost)
    refine ⟨s2, ?_, g1, ?_, ?_⟩
    · unfold kppLoop
      rw [e]
      simp only
      rw [es]
      simp only
      rw [thdRow_ok hnt (by omega) hlt]
      simp only
      rw [if_pos k1]
      exact e2
    · intro c' hc'
      simp only [List.mem_cons, not_or] at hc'
      rw [g2 c' hc'.2]
      show Function.update s'.cltrs.means c (data r) c' = _
      rw [Function.update_of_ne hc'.1, h1]
    · intro pre c1 post he
      have hm2 : ∀ c', c' ∉ c :: rest → s2.cltrs.means c' = s'.cltrs.means c' := by
        intro c' hc'
        simp only [List.mem_cons, not_or] at hc'
        rw [g2 c' hc'.2]
        exact Function.update_of_ne hc'.1 _ _
      cases pre with
      | cons a pre =>
        simp only [List.cons_append, List.cons.injEq] at he
        obtain ⟨rfl, he⟩ := he
        obtain ⟨r1, d1, q1, q2, q3⟩ := g3 pre c1 post he
        refine ⟨r1, d1, q1, q2, ?_⟩
        rw [List.getLast_cons (by simp)]
        exact q3
      | nil =>
        simp only [List.nil_append, List.cons.injEq] at he
        obtain ⟨rfl, rfl⟩ := he
        refine ⟨r, fun q => (s'.slots q).dist, ?_, ?_, ?_⟩
        · rw [g2 c hnd.1]
          exact Function.update_self ..
        · intro q hq
          refine ⟨?_, ?_⟩
          · obtain ⟨c', w1, _, w3⟩ := hpost.val q hq
            exact ⟨c', w1, by rw [hm2 c' w1]; exact w3⟩
          · intro c' hc'
            rw [hm2 c' hc']
            exact hpost.le q hq c' hc'
        · unfold Sampled
          simp only [List.getLast_singleton]
          have hth : threshold total (u ci) =
              (∑ i ∈ Finset.range N, (s'.slots i).dist) * u ci / 2147483646 := by
            rw [← h4]; unfold threshold randDiv; norm_num
          simp only [Nat.zero_add, Nat.sub_zero] at k4 k5
          rw [← hth]
          refine ⟨by omega, ?_, ?_⟩
          · rw [k4] at k1; linarith
          · intro j hj
            have := k5 j (by omega) hj
            linarith

/-! ### Distributed k-means++ -/

theorem gatherDist_eq {g np : Nat} (hnp : 0 < np) (hg : np ≤ g) {d : Nat → Nat → D} {f : Nat → D}
    (h : ∀ p l, p < np → l < procNrow g np p → d p l = f (Distr.off g np p + l)) :
    ∀ i, i < g → gatherDist g np d i = f i := by
  intro i hi
  have hq : 0 < g / np := Nat.div_pos hg hnp
  have hdm := Nat.div_add_mod g np
  have hml : g % np < np := Nat.mod_lt _ hnp
  unfold gatherDist
  split
  · rename_i hlt
    have hp : i / (g / np) < np := by
      rw [Nat.div_lt_iff_lt_mul hq]
      have : np * (g / np) = g - g % np := by omega
      omega
    have hl : i % (g / np) < g / np := Nat.mod_lt _ hq
    rw [h _ _ hp (by unfold procNrow; split <;> omega)]
    congr 1
    unfold Distr.off
    have := Nat.div_add_mod i (g / np)
    rw [Nat.mul_comm] at this
    exact this
  · rename_i hge
    have hpn : procNrow g np (np - 1) = g / np + g % np := by
      unfold procNrow; rw [if_pos rfl]
    rw [h (np - 1) _ (by omega) (by rw [hpn]; omega)]
    congr 1
    unfold Distr.off
    have : (np - 1) * (g / np) + g / np = np * (g / np) := by
      obtain ⟨m, rfl⟩ : ∃ m, np = m + 1 := ⟨np - 1, by omega⟩
      rw [Nat.add_sub_cancel, Nat.succ_mul]
    omega

theorem select_congr [Zero D] [Sub D] [LE D] [DecidableLE D] {d d' : Nat → D} (l : List Nat)
    (h : ∀ r ∈ l, d r = d' r) : ∀ x, select d l x = select d' l x := by
  induction l with
  | nil => intro x; rfl
  | cons a l ih =>
    intro x
    unfold select
    rw [h a (by simp), ih fun r hr => h r (by simp [hr])]

/-- Sum over the ranks when only one of them contributes. -/
theorem allreduce_single {M : Type _} [AddCommMonoid M] {np p : Nat} (hp : p < np) (x : Nat → M)
    (h : ∀ q, q < np → q ≠ p → x q = 0) : Distr.allreduce np x = x p := by
  rw [Distr.allreduce_eq]
  exact Finset.sum_eq_single p (fun q hq hne => h q (Finset.mem_range.1 hq) hne)
    (fun hn => absurd (Finset.mem_range.2 hp) hn)

/-- The ranks' states before the pass for `ci` are those of a serial state, up to what the pass
makes equal. -/
structure RelPre [LT D] [DecidableLT D] (dist : Row R n → Row R n → D) (data : Nat → Row R n)
    (g np : Nat) (ci : Fin k) (ps : Nat → Kpp R D k n) (s : Kpp R D k n) : Prop where
  means : ∀ p, p < np → (ps p).cltrs.means = s.cltrs.means
  slots : ∀ p l, p < np → l < procNrow g np p →
    newSlot (dist (data (Distr.off g np p + l)) (s.cltrs.means ci)) ci ((ps p).slots l)
      = newSlot (dist (data (Distr.off g np p + l)) (s.cltrs.means ci)) ci
          (s.slots (Distr.off g np p + l))

/-- … and after the pass. -/
structure RelPost (g np : Nat) (ps : Nat → Kpp R D k n) (s : Kpp R D k n) : Prop where
  means : ∀ p, p < np → (ps p).cltrs.means = s.cltrs.means
  slots : ∀ p l, p < np → l < procNrow g np p → (ps p).slots l = s.slots (Distr.off g np p + l)

theorem kppPassDist_sim [AddCommMonoid D] [LinearOrder D] {dist : Row R n → Row R n → D}
    {data : Nat → Row R n} {g np : Nat} {T : Nat → Nat} {todo : Nat → Nat → List Nat}
    {sched : Nat → List Nat} {ci : Fin k} {ps : Nat → Kpp R D k n} {s s' : Kpp R D k n} {total : D}
    (hnp : 0 < np) (hsp : ∀ p, p < np → Split (procNrow g np p) (T p) (todo p))
    (hc : ∀ p, p < np → Complete (T p) (todo p) (sched p))
    (hrel : RelPre dist data g np ci ps s) (hcl : s'.cltrs = s.cltrs)
    (hsl : ∀ r, r < g → s'.slots r = newSlot (dist (data r) (s.cltrs.means ci)) ci (s.slots r))
    (htot : total = ∑ r ∈ Finset.range g, (s'.slots r).dist) :
    ∃ ps', kppPassDist dist data g np T todo sched ci ps = .ok (ps', total) ∧
      RelPost g np ps' s' := by
  obtain ⟨m, e, hm⟩ := Distr.eachRank_ok
    (f := fun p => kppPass dist (Distr.procData data g np p) (T p) (todo p) (sched p) ci (ps p))
    (np := np) (d := fun p => (ps p, 0)) (by
      intro p hp
      obtain ⟨a, b, h, _⟩ := kppPass_spec (dist := dist) (data := Distr.procData data g np p)
        (ci := ci) (s := ps p) (hsp p hp) (hc p hp)
      exact ⟨_, h⟩)
  have hloc : ∀ p, p < np → (m p).1.cltrs = (ps p).cltrs ∧
      (∀ l, l < procNrow g np p → (m p).1.slots l = s'.slots (Distr.off g np p + l)) ∧
      (m p).2 = ∑ l ∈ Finset.range (procNrow g np p), (s'.slots (Distr.off g np p + l)).dist := by
    intro p hp
    obtain ⟨a, b, h, h1, h2, _, h4⟩ := kppPass_spec (dist := dist)
      (data := Distr.procData data g np p) (ci := ci) (s := ps p) (hsp p hp) (hc p hp)
    have hmp := hm p hp
    rw [h, Except.ok.injEq] at hmp
    rw [← hmp]
    have hsl' : ∀ l, l < procNrow g np p → a.slots l = s'.slots (Distr.off g np p + l) := by
      intro l hl
      rw [h2 l hl, hsl _ (Distr.off_lt hp hl), hrel.means p hp]
      exact hrel.slots p l hp hl
    refine ⟨h1, hsl', ?_⟩
    simp only
    rw [h4]
    exact Finset.sum_congr rfl fun l hl => by rw [hsl' l (Finset.mem_range.1 hl)]
  refine ⟨fun p => (m p).1, ?_, ⟨?_, ?_⟩⟩
  · unfold kppPassDist
    rw [e]
    simp only
    congr 2
    rw [Distr.allreduce_eq, htot, ← Distr.sum_procs hnp fun r => (s'.slots r).dist]
    exact Finset.sum_congr rfl fun p hp => (hloc p (Finset.mem_range.1 hp)).2.2
  · intro p hp
    rw [(hloc p hp).1, hrel.means p hp, hcl]
  · intro p l hp hl
    exact (hloc p hp).2.1 l hl

theorem chooseDist_sim [AddCommMonoid R] [Field D] [LinearOrder D] [IsStrictOrderedRing D]
    {zeroIt : Bool} {dist : Row R n → Row R n → D}
    {data : Nat → Row R n} {g np nt r : Nat} {c : Fin k} {ps : Nat → Kpp R D k n} {s : Kpp R D k n}
    (hself : dist (data r) (data r) = 0) (hnn : 0 ≤ (s.slots r).dist)
    (hnp : 0 < np) (hnt : 0 < nt) (hlt : g < 4294967296) (hr : r < g) (hrel : RelPost g np ps s) :
    ∃ ps', Distr.eachRank (fun p => chooseDist zeroIt data g np p nt r c (ps p)) np ps = .ok ps' ∧
      RelPre dist data g np c (reduceMeans np ps') (s.choose (data r) r c) := by
  obtain ⟨p, l, hp, hl, er, hloc, hrid, hother⟩ := owner_spec (g := g) hnp hr (by omega)
  have hpl : procNrow g np p ≤ g := Distr.procNrow_le hp
  have howner : chooseDist zeroIt data g np p nt r c (ps p) = .ok
      { cltrs := (ps p).cltrs.setMean (data r) c
        slots := Function.update (ps p).slots l
          { dist := if zeroIt then 0 else ((ps p).slots l).dist, assign := some c } } := by
    unfold chooseDist
    rw [if_pos hloc, hrid]
    simp only
    rw [thdRow_ok hnt hl (by omega)]
    have : Distr.procData data g np p l = data r := by rw [er]; rfl
    rw [this]
  have hoth : ∀ q, q < np → q ≠ p → chooseDist zeroIt data g np q nt r c (ps q)
      = .ok { ps q with cltrs := Clusters.empty } := by
    intro q hq hne
    unfold chooseDist
    rw [if_neg (by rw [hother q hq hne]; simp)]
  obtain ⟨m, e, hm⟩ := Distr.eachRank_ok
    (f := fun p => chooseDist zeroIt data g np p nt r c (ps p)) (np := np) (d := ps) (by
      intro q hq
      by_cases h : q = p
      · subst h; exact ⟨_, howner⟩
      · exact ⟨_, hoth q hq h⟩)
  have hmp : m p =
      { cltrs := (ps p).cltrs.setMean (data r) c
        slots := Function.update (ps p).slots l
          { dist := if zeroIt then 0 else ((ps p).slots l).dist, assign := some c } } := by
    have := hm p hp
    rw [howner, Except.ok.injEq] at this
    exact this.symm
  have hmq : ∀ q, q < np → q ≠ p → m q = { ps q with cltrs := Clusters.empty } := by
    intro q hq hne
    have := hm q hq
    rw [hoth q hq hne, Except.ok.injEq] at this
    exact this.symm
  have hmeans : ∀ q, q < np → (reduceMeans np m q).cltrs.means
      = (s.choose (data r) r c).cltrs.means := by
    intro q hq
    funext c' j
    show Distr.allreduce np (fun q => (m q).cltrs.means c' j) = _
    rw [allreduce_single hp]
    · rw [hmp]
      show Function.update (ps p).cltrs.means c (data r) c' j = _
      rw [hrel.means p hp]
      rfl
    · intro q' hq' hne
      rw [hmq q' hq' hne]
      rfl
  refine ⟨m, e, hmeans, ?_⟩
  intro q l' hq hl'
  have hnew : (s.choose (data r) r c).cltrs.means c = data r := Function.update_self ..
  rw [hnew]
  show newSlot _ c ((m q).slots l') = newSlot _ c
    (Function.update s.slots r { s.slots r with assign := some c } (Distr.off g np q + l'))
  by_cases hqp : q = p
  · subst hqp
    rw [hmp]
    simp only
    by_cases hll : l' = l
    · subst hll
      rw [← er, Function.update_self, Function.update_self, hself, hrel.slots q l' hq hl', ← er]
      cases zeroIt with
      | false => rfl
      | true =>
        unfold newSlot
        simp only [if_true, lt_self_iff_false, if_false]
        split
        · rfl
        · rename_i h
          rw [le_antisymm (not_lt.1 h) hnn]
    · rw [Function.update_of_ne hll, Function.update_of_ne (by omega), hrel.slots q l' hq hl']
  · rw [hmq q hq hqp]
    simp only
    rw [Function.update_of_ne, hrel.slots q l' hq hl']
    intro h
    have h2 := hother q hq hqp
    rw [(isLocal_iff (by omega) hq hr).2 (by rw [← h]; unfold Distr.off; omega)] at h2
    simp at h2

theorem kppLoopDist_sim [AddCommMonoid R] [Field D] [LinearOrder D] [IsStrictOrderedRing D]
    {zeroIt : Bool} {dist : Row R n → Row R n → D}
    {data : Nat → Row R n} {g np nt T' : Nat} {T : Nat → Nat}
    {todo' : Nat → List Nat} {todo : Nat → Nat → List Nat}
    {sched' : Nat → List Nat} {sched : Nat → Nat → List Nat}
    {u : Nat → D} (hpos : ∀ q r, q < g → r < g → 0 ≤ dist (data q) (data r))
    (hself : ∀ r, r < g → dist (data r) (data r) = 0)
    (hnp : 0 < np) (hg : np ≤ g) (hnt : 0 < nt) (hlt : g < 4294967296)
    (hsp' : Split g T' todo') (hc' : ∀ i, Complete T' todo' (sched' i))
    (hsp : ∀ p, p < np → Split (procNrow g np p) (T p) (todo p))
    (hc : ∀ i p, p < np → Complete (T p) (todo p) (sched i p)) (hu : ∀ i, 0 ≤ u i ∧ u i ≤ 1)
    (rest : List (Fin k)) :
    ∀ ci s ps, rest.Nodup → ci ∉ rest → Pre dist data g rest ci s →
    RelPre dist data g np ci ps s →
    ∃ s' ps', kppLoop dist data g nt T' todo' sched' u rest ci s = .ok s' ∧
      kppLoopDist zeroIt dist data g np nt T todo sched u rest ci ps = .ok ps' ∧
      RelPost g np ps' s' := by
  induction rest with
  | nil =>
    intro ci s ps _ hci hpre hrel
    obtain ⟨s', total, e, h1, h2, _, h4⟩ := kppPass_spec (dist := dist) (data := data) (ci := ci)
      (s := s) hsp' (hc' ci)
    obtain ⟨ps', e', hr'⟩ := kppPassDist_sim hnp hsp (hc ci) hrel h1 h2 h4
    exact ⟨s', ps', by unfold kppLoop; rw [e], by unfold kppLoopDist; rw [e'], hr'⟩
  | cons c rest ih =>
    intro ci s ps hnd hci hpre hrel
    rw [List.nodup_cons] at hnd
    obtain ⟨s', total, e, h1, h2, _, h4⟩ := kppPass_spec (dist := dist) (data := data) (ci := ci)
      (s := s) hsp' (hc' ci)
    obtain ⟨ps', e', hr'⟩ := kppPassDist_sim hnp hsp (hc ci) hrel h1 h2 h4
    have hpost := pass_post hci hpre h1 h2
    have hnn : ∀ r, r < g → 0 ≤ (s'.slots r).dist := by
      intro r hr
      obtain ⟨c', hc', _, e⟩ := hpost.val r hr
      obtain ⟨q, hq, eq⟩ := hpost.rows c' hc'
      rw [e, eq]; exact hpos _ _ hr hq
    have htot : 0 ≤ total := by
      rw [h4]; exact Finset.sum_nonneg fun r hr => hnn r (Finset.mem_range.1 hr)
    obtain ⟨r, y, es, k1, k2, k3, _⟩ := select_spec (fun r => (s'.slots r).dist) g 0
      (threshold total (u ci)) (by omega) (by
        simp only [Nat.zero_add]; rw [← h4]; exact (threshold_le htot (hu ci).1 (hu ci).2).1)
    rw [← List.range_eq_range'] at es
    have hrg : r < g := by omega
    obtain ⟨ps2, e2, hr2⟩ := chooseDist_sim (zeroIt := zeroIt) (dist := dist) (data := data)
      (c := c) (hself r hrg) (hnn r hrg) hnp hnt hlt hrg hr'
    obtain ⟨s3, ps3, e3, e3', hr3⟩ := ih c (s'.choose (data r) r c) (reduceMeans np ps2) hnd.2 hnd.1
      (choose_pre hpos hself hnd.1 hrg hpost) hr2
    refine ⟨s3, ps3, ?_, ?_, hr3⟩
    · unfold kppLoop
      rw [e]
      simp only
      rw [es]
      simp only
      rw [thdRow_ok hnt hrg hlt]
      simp only
      rw [if_pos k1]
      exact e3
    · have es' : select (gatherDist g np fun p l => ((ps' p).slots l).dist) (List.range g)
          (threshold total (u ci)) = (some r, y) := by
        rw [← es]
        apply select_congr
        intro i hi
        exact gatherDist_eq (f := fun r => (s'.slots r).dist) hnp hg
          (fun p l hp hl => by rw [hr'.slots p l hp hl]) i (List.mem_range.1 hi)
      unfold kppLoopDist
      rw [e']
      simp only
      rw [es']
      simp only
      rw [e2]
      simp only
      rw [if_pos k1]
      exact e3'

/-- State after the first centre has been set. -/
theorem first_pre [Field D] [LinearOrder D] {dist : Row R n → Row R n → D} {data : Nat → Row R n}
    {N : Nat} {c0 : Fin k} {rest : List (Fin k)} {s : Kpp R D k n} {first : Nat} {big : D}
    (hall : ∀ c, c = c0 ∨ c ∈ rest) (hc0 : c0 ∉ rest) (hself : ∀ r, r < N → dist (data r) (data r) = 0)
    (hf : first < N)
    (hbig : ∀ r, r < N → dist (data r) (data first) < big) (hs : ∀ r, r < N → (s.slots r).dist = big) :
    Pre dist data N rest c0
      { cltrs := s.cltrs.setMean (data first) c0
        slots := Function.update s.slots first ⟨0, some c0⟩ } := by
  have hm : (s.cltrs.setMean (data first) c0).means c0 = data first := Function.update_self ..
  have honly : ∀ c, c ∉ rest → c = c0 := fun c hc => (hall c).resolve_right hc
  refine ⟨?_, ?_, ?_⟩
  · intro c hc
    rw [honly c hc]
    exact ⟨first, hf, hm⟩
  · intro r hr c hc hne
    exact absurd (honly c hc) hne
  · intro r hr
    simp only
    by_cases h : r = first
    · subst h
      right
      exact ⟨c0, hc0, by rw [Function.update_self], by rw [Function.update_self, hm, hself r hr]⟩
    · left
      rw [Function.update_of_ne h, hm, hs r hr]
      exact hbig r hr

end Knor.Init
