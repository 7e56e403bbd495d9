import Verif.Lemmas.PruneSum
import Verif.Lemmas.Separated

/-!
# Pruned distributed k-means in rounded arithmetic
-/

namespace Knor.Distr

open Knor Knor.Par Knor.Partition Knor.Spec Knor.Prune

variable {R F : Type _} {k n : Nat} [Zero R] [Add R] [Sub R] [Mul R] [Div R] [IntCast R] [NatCast R]
  [LT R] [DecidableLT R] [LE R] [DecidableLE R] [Field F] [LinearOrder F]
  [IsStrictOrderedRing F] {fin : R → Prop} {val : R → F} {u η M X : F} {K : Nat}

/-- `finalize` of one number. -/
def finz (c : Nat) (y : R) : R := if 1 < c then y / ((c : Int) : R) else y

/-- `unfinalize` of one number. -/
def unfin (c : Nat) (y : R) : R := if c < 2 then y else y * ((c : Int) : R)

/-- What is assumed about sizes; `W` bounds the number of additions a rank makes for one sum. -/
structure PSizes (fin : R → Prop) (val : R → F) (u M X : F) (K g np nt W : Nat) (data : Nat → Row R n) : Prop where
  np_pos : 0 < np
  np_le : np ≤ g
  nt_pos : 0 < nt
  g_lt : g + 8192 < 4294967296
  g_le : g ≤ K
  width : ∀ p, p < np → procNrow g np p / effThreads nt (procNrow g np p) +
    procNrow g np p % effThreads nt (procNrow g np p) + effThreads nt (procNrow g np p) ≤ W
  rows : ∀ r, r < g → InBox fin val X (data r)
  sum_le : (1 + u) ^ (W + np) * (g * X) ≤ M

omit [Zero R] [Add R] [Sub R] [Mul R] [Div R] [IntCast R] [NatCast R] [LT R] [DecidableLT R] [LE R] [DecidableLE R]
  [Field F] [LinearOrder F] [IsStrictOrderedRing F] in
theorem taskRows_length {N nt : Nat} (hn : 0 < N) (hnt : 0 < nt) (hlt : N + 8192 < 4294967296) (t : Nat) :
    (taskRows N nt t).length ≤ N / effThreads nt N + N % effThreads nt N := by
  rw [taskRows_eq hnt hn hlt]; exact Kmeans.threadRows_length t

/-- A rank's state after its local pass; `L` are the sums of its workers. -/
def passState (c : PState R R k n) (L : Clusters R k n) (slots : Nat → Slot R k) (N : Nat) (pi : Bool) :
    DProc R R k n :=
  { core :=
      { c with
        prevMeans := c.cltrs.means
        cltrs := L
        slots := slots
        changed := ∑ r ∈ Finset.range N, rowChange pi (c.slots r).assign (slots r).assign }
    prevNum := c.cltrs.num }

/-- The local pass of a rank. -/
theorem localPass_near (hA : RoundsAll fin val u η M K) {eucl : Row R n → Row R n → R} {big : R}
    {data : Nat → Row R n} {N nt W : Nat} {pi : Bool} {sched : List Nat} {s : DProc R R k n} {c : PState R R k n}
    (hn : 0 < N) (hnt : 0 < nt) (hlt : N + 8192 < 4294967296)
    (hc : Complete (effThreads nt N) (taskRows N nt) sched)
    (hW : N / effThreads nt N + N % effThreads nt N + effThreads nt N ≤ W)
    (hfin : ∀ r, r < N → ∀ j, fin (data r j))
    (hM : ∀ j, (1 + u) ^ W * (∑ r ∈ Finset.range N, |val (data r j)|) ≤ M)
    (hcd : computeDm eucl big s.core = .ok c)
    (hg : ∀ r, r < N → ∃ s', slotStep eucl big data c.view pi r (c.slots r) = .ok s' ∧ ∃ i, s'.assign = some i)
    (hinv : pi = false → ∀ r, r < N → ∃ i, (c.slots r).assign = some i) :
    ∃ slots L, (∀ r, r < N → slotStep eucl big data c.view pi r (c.slots r) = .ok (slots r)) ∧
      localPass eucl eucl big data N nt pi sched s = .ok (passState c L slots N pi) ∧
      (∀ i, L.complete i = false) ∧
      (∀ i, L.num i = ∑ r ∈ Finset.range N, rowDelta pi (c.slots r).assign (slots r).assign i (1 : Int)) ∧
      ∀ i j, Near fin val u W (L.means i j)
        (∑ r ∈ Finset.range N, rowDelta pi (c.slots r).assign (slots r).assign i (val (data r j)))
        (∑ r ∈ Finset.range N, |val (data r j)|) := by
  have hu := hA.u_nonneg
  have hsp := split_taskRows hn hnt hlt
  obtain ⟨q, e, h1, h2, h3⟩ := run_det (α := Kmeans.Acc R k n)
    (f := emRow eucl big data c.view pi) (g := slotStep eucl big data c.view pi)
    (h := accStep data pi) (fun r m a => by
      rw [emRow_eq]; cases slotStep eucl big data c.view pi r m <;> rfl)
    (s0 := { mem := c.slots, acc := fun _ => Kmeans.Acc.init, todo := taskRows N nt })
    hsp hc (fun r hr => by obtain ⟨s', h, _⟩ := hg r hr; exact ⟨s', h⟩)
  have hsome : ∀ r, r < N → ∃ i, (q.mem r).assign = some i := by
    intro r hr
    obtain ⟨s', h, i, hi⟩ := hg r hr
    have := h1 r hr
    simp only at this
    rw [h] at this
    simp only [Except.ok.injEq] at this
    exact ⟨i, by rw [← this]; exact hi⟩
  obtain ⟨m1, m2, m3, m4⟩ := mergeAcc_near hA hsp (taskRows_length hn hnt hlt) data hfin pi c.slots q.mem hsome hinv
    q.acc h3 (fun j => le_trans (mul_le_mul_of_nonneg_right (pow_le_pow_right₀ (by linarith) hW)
      (Finset.sum_nonneg fun _ _ => abs_nonneg _)) (hM j))
  refine ⟨q.mem, (List.range (effThreads nt N)).foldl (fun x t => Clusters.peq x (q.acc t).loc) Clusters.empty,
    h1, ?_, m1, m2, fun i j => (m3 i j).mono hu hW⟩
  unfold localPass passState
  rw [hcd]
  simp only
  rw [e]
  simp only
  rw [m4]

omit [Field F] [LinearOrder F] [IsStrictOrderedRing F] [Zero R] [Add R] [Sub R] [Mul R] [Div R] [IntCast R] [NatCast R] [LT R]
  [DecidableLT R] [LE R] [DecidableLE R] in
theorem sum_rowDelta {G : Type _} [AddCommGroup G] (g : Nat) (f : Nat → G) (pi : Bool) (a b : Nat → Option (Fin k))
    (c : Fin k) :
    ∑ r ∈ Finset.range g, rowDelta pi (a r) (b r) c (f r) =
      (∑ r ∈ Finset.range g, if b r = some c then f r else 0) -
        if pi then 0 else ∑ r ∈ Finset.range g, if a r = some c then f r else 0 := by
  unfold rowDelta
  cases pi with
  | true => simp
  | false => simp [Finset.sum_sub_distrib]

/-- One iteration of all ranks: where the numbers come from. -/
theorem iterationPrunedBy_sums (hA : RoundsAll fin val u η M K) {sum : Fin k → Fin n → (Nat → R) → R}
    {eucl : Row R n → Row R n → R} {big : R} {data : Nat → Row R n} {g np nt W : Nat}
    {first : Bool} {sched : Nat → List Nat} {procs : Nat → DProc R R k n} {s s1 : PState R R k n}
    (hS : PSizes fin val u M X K g np nt W data)
    (hc : ∀ p, p < np → Complete (effThreads nt (procNrow g np p))
      (Prune.taskRows (procNrow g np p) nt) (sched p))
    (hrel : Rel g np procs s) (hcd : computeDm eucl big s = .ok s1)
    (hg : ∀ r, r < g → ∃ s', slotStep eucl big data s1.view first r (s1.slots r) = .ok s' ∧
      ∃ i, s'.assign = some i)
    (hinv : first = false → (∀ c, s.cltrs.num c = (Spec.count g (assignOf s.slots) c : Int)) ∧
      ∀ r, r < g → ∃ i, (s.slots r).assign = some i) :
    ∃ (slots : Nat → Slot R k) (procs' : Nat → DProc R R k n) (L : Nat → Clusters R k n) (S : Clusters R k n),
      (∀ r, r < g → slotStep eucl big data s1.view first r (s.slots r) = .ok (slots r)) ∧
      iterationPrunedBy sum eucl eucl big data g np nt first sched procs = .ok procs' ∧
      (∀ p, p < np → ∀ c j, Near fin val u W ((L p).means c j)
        (∑ r ∈ Finset.range (procNrow g np p), rowDelta first (s.slots (off g np p + r)).assign
          (slots (off g np p + r)).assign c (val (data (off g np p + r) j)))
        (∑ r ∈ Finset.range (procNrow g np p), |val (data (off g np p + r) j)|)) ∧
      (∀ c, S.num c = (Spec.count g (assignOf slots) c : Int)) ∧
      (∀ c j, S.means c j = finz (Spec.count g (assignOf slots) c)
        (if first then sum c j fun p => (L p).means c j
         else unfin (Spec.count g (assignOf s.slots) c) (s.cltrs.means c j) + sum c j fun p => (L p).means c j)) ∧
      Rel g np procs' { s1 with
        cltrs := S
        prevMeans := s.cltrs.means
        prevDist := fun c => eucl (S.means c) (s.cltrs.means c)
        slots := slots
        counts := S.num
        changed := if first then g else numChanged g (assignOf s.slots) (assignOf slots) } := by
  classical
  have hu := hA.u_nonneg
  have hnp := hS.np_pos
  obtain ⟨m, sv, hcomp, rfl⟩ : ∃ m sv,
      DistMatrix.computeDist big eucl s.cltrs.means s.dm s.sval = .ok (m, sv) ∧
      s1 = { s with dm := m, sval := sv } := by
    unfold computeDm at hcd
    split at hcd
    · simp at hcd
    · rename_i m sv h
      simp only [Except.ok.injEq] at hcd
      exact ⟨m, sv, h, hcd.symm⟩
  have hcdp : ∀ p, p < np → computeDm eucl big (procs p).core
      = .ok { (procs p).core with dm := m, sval := sv } := by
    intro p hp
    unfold computeDm
    rw [show DistMatrix.computeDist big eucl (procs p).core.cltrs.means (procs p).core.dm
      (procs p).core.sval = .ok (m, sv) by
        rw [hrel.cltrs p hp, hrel.dm p hp, hrel.sval p hp, hcomp]]
  have hview : ∀ p, p < np → PState.view { (procs p).core with dm := m, sval := sv }
      = PState.view { s with dm := m, sval := sv } := by
    intro p hp
    simp only [PState.view, hrel.cltrs p hp, hrel.prevDist p hp]
  choose f hf hfs using hg
  let slots : Nat → Slot R k := fun r => if h : r < g then f r h else s.slots r
  have hsl : ∀ r, r < g → slotStep eucl big data
      (PState.view { s with dm := m, sval := sv }) first r (s.slots r) = .ok (slots r) := by
    intro r hr; simp only [slots, hr, dif_pos]; exact hf r hr
  have hsome : ∀ r, r < g → ∃ c, assignOf slots r = some c := by
    intro r hr; simp only [assignOf, slots, hr, dif_pos]; exact hfs r hr
  have hrowsum : ∀ p, p < np → ∀ j, ∑ r ∈ Finset.range (procNrow g np p), |val (data (off g np p + r) j)| ≤ g * X := by
    intro p hp j
    have h1 : ∑ r ∈ Finset.range (procNrow g np p), |val (data (off g np p + r) j)| ≤
        ∑ p ∈ Finset.range np, ∑ r ∈ Finset.range (procNrow g np p), |val (data (off g np p + r) j)| :=
      Finset.single_le_sum (f := fun p => ∑ r ∈ Finset.range (procNrow g np p), |val (data (off g np p + r) j)|)
        (fun _ _ => Finset.sum_nonneg fun _ _ => abs_nonneg _) (Finset.mem_range.2 hp)
    rw [sum_procs (g := g) hnp fun r => |val (data r j)|] at h1
    refine h1.trans ((Finset.sum_le_sum fun r hr => (hS.rows r (Finset.mem_range.1 hr) j).2).trans ?_)
    simp
  have hloc : ∀ p, p < np → ∃ sl L, localPass eucl eucl big (procData data g np p)
      (procNrow g np p) nt first (sched p) (procs p) = .ok (passState
        { (procs p).core with dm := m, sval := sv } L sl (procNrow g np p) first) ∧
      (∀ r, r < procNrow g np p → sl r = slots (off g np p + r)) ∧
      (∀ i, L.complete i = false) ∧
      (∀ i, L.num i = ∑ r ∈ Finset.range (procNrow g np p),
        rowDelta first ((procs p).core.slots r).assign (sl r).assign i (1 : Int)) ∧
      ∀ i j, Near fin val u W (L.means i j)
        (∑ r ∈ Finset.range (procNrow g np p), rowDelta first ((procs p).core.slots r).assign (sl r).assign i
          (val (procData data g np p r j)))
        (∑ r ∈ Finset.range (procNrow g np p), |val (procData data g np p r j)|) := by
    intro p hp
    have hle := procNrow_le (g := g) hp
    have hlt := hS.g_lt
    obtain ⟨sl, L, h1, h2, h3, h4, h5⟩ := localPass_near hA (eucl := eucl) (big := big)
      (data := procData data g np p) (pi := first) (sched := sched p) (s := procs p)
      (procNrow_pos hnp hS.np_le) hS.nt_pos (by omega) (hc p hp) (hS.width p hp)
      (fun r hr j => (hS.rows _ (off_lt hp hr) j).1)
      (fun j => by
        refine le_trans ?_ hS.sum_le
        exact mul_le_mul (pow_le_pow_right₀ (by linarith) (by omega)) (hrowsum p hp j)
          (Finset.sum_nonneg fun _ _ => abs_nonneg _) (pow_nonneg (by linarith) _))
      (hcdp p hp)
      (fun r hr => by
        refine ⟨slots (off g np p + r), ?_, hsome _ (off_lt hp hr)⟩
        rw [hview p hp, hrel.slots p r hp hr]
        exact hsl _ (off_lt hp hr))
      (fun h r hr => by
        simp only
        rw [hrel.slots p r hp hr]
        exact (hinv h).2 _ (off_lt hp hr))
    refine ⟨sl, L, h2, ?_, h3, h4, h5⟩
    intro r hr
    have := h1 r hr
    rw [hview p hp] at this
    simp only at this
    rw [hrel.slots p r hp hr] at this
    have h' := hsl _ (off_lt hp hr)
    change slotStep eucl big data _ first (off g np p + r) _ = _ at this
    rw [h'] at this
    simp only [Except.ok.injEq] at this
    exact this.symm
  obtain ⟨loc, e1, h1⟩ := eachRank_ok (np := np) (d := procs) fun p hp => by
    obtain ⟨sl, L, h, _⟩ := hloc p hp; exact ⟨_, h⟩
  have hl : ∀ p, p < np → ∃ sl, loc p = passState
        { (procs p).core with dm := m, sval := sv } (loc p).core.cltrs sl (procNrow g np p) first ∧
      (∀ r, r < procNrow g np p → sl r = slots (off g np p + r)) ∧
      (∀ i, (loc p).core.cltrs.complete i = false) ∧
      (∀ i, (loc p).core.cltrs.num i = ∑ r ∈ Finset.range (procNrow g np p),
        rowDelta first (s.slots (off g np p + r)).assign (slots (off g np p + r)).assign i (1 : Int)) ∧
      (loc p).core.changed = ∑ r ∈ Finset.range (procNrow g np p),
        rowChange first (s.slots (off g np p + r)).assign (slots (off g np p + r)).assign ∧
      ∀ i j, Near fin val u W ((loc p).core.cltrs.means i j)
        (∑ r ∈ Finset.range (procNrow g np p), rowDelta first (s.slots (off g np p + r)).assign
          (slots (off g np p + r)).assign i (val (data (off g np p + r) j)))
        (∑ r ∈ Finset.range (procNrow g np p), |val (data (off g np p + r) j)|) := by
    intro p hp
    obtain ⟨sl, L, h, h2, h3, h4, h5⟩ := hloc p hp
    have := h1 p hp
    rw [h] at this
    simp only [Except.ok.injEq] at this
    have hLe : (loc p).core.cltrs = L := by rw [← this]; rfl
    refine ⟨sl, by rw [hLe]; exact this.symm, h2, by rw [hLe]; exact h3, ?_, ?_, ?_⟩
    · intro i
      rw [hLe, h4]
      apply Finset.sum_congr rfl
      intro r hr
      rw [h2 r (Finset.mem_range.1 hr), hrel.slots p r hp (Finset.mem_range.1 hr)]
    · rw [← this]
      simp only [passState]
      apply Finset.sum_congr rfl
      intro r hr
      rw [h2 r (Finset.mem_range.1 hr), hrel.slots p r hp (Finset.mem_range.1 hr)]
    · intro i j
      rw [hLe]
      have h6 := h5 i j
      rw [Finset.sum_congr rfl fun r hr => by
        rw [h2 r (Finset.mem_range.1 hr), hrel.slots p r hp (Finset.mem_range.1 hr)]] at h6
      exact h6
  have hnum : ∀ c, allreduce np (fun p => (loc p).core.cltrs.num c) =
      (Spec.count g (assignOf slots) c : Int) - if first then 0 else (Spec.count g (assignOf s.slots) c : Int) := by
    intro c
    rw [allreduce_eq]
    have : ∑ p ∈ Finset.range np, (loc p).core.cltrs.num c = ∑ r ∈ Finset.range g,
        rowDelta first (s.slots r).assign (slots r).assign c (1 : Int) := by
      rw [← sum_procs (g := g) hnp]
      apply Finset.sum_congr rfl
      intro p hp
      obtain ⟨sl, _, _, _, h, _⟩ := hl p (Finset.mem_range.1 hp)
      exact h c
    refine this.trans ((sum_rowDelta g (fun _ => (1 : Int)) first (assignOf s.slots) (assignOf slots) c).trans ?_)
    rw [count_eq, count_eq]
  have hch : allreduce np (fun p => (loc p).core.changed) =
      if first then g else numChanged g (assignOf s.slots) (assignOf slots) := by
    rw [allreduce_eq]
    have : ∑ p ∈ Finset.range np, (loc p).core.changed = ∑ r ∈ Finset.range g,
        rowChange first (s.slots r).assign (slots r).assign := by
      rw [← sum_procs (g := g) hnp]
      apply Finset.sum_congr rfl
      intro p hp
      obtain ⟨sl, _, _, _, _, h, _⟩ := hl p (Finset.mem_range.1 hp)
      exact h
    rw [this]
    unfold rowChange
    cases first with
    | true => simp
    | false =>
      simp only [Bool.false_eq_true, if_false]
      rw [Kmeans.numChanged_eq_sum]; rfl
  let S : Clusters R k n :=
    { means := fun c j => finz (Spec.count g (assignOf slots) c)
        (if first then sum c j fun p => (loc p).core.cltrs.means c j
         else unfin (Spec.count g (assignOf s.slots) c) (s.cltrs.means c j) +
          sum c j fun p => (loc p).core.cltrs.means c j)
      num := fun c => (Spec.count g (assignOf slots) c : Int)
      complete := fun _ => true }
  have hafter : ∀ p, p < np → afterReducePruned eucl g first
      (fun c j => sum c j fun p => (loc p).core.cltrs.means c j)
      (fun c => allreduce np fun p => (loc p).core.cltrs.num c)
      (allreduce np fun p => (loc p).core.changed) (loc p) =
      .ok (afterResult eucl S (if first then g
        else numChanged g (assignOf s.slots) (assignOf slots)) (loc p)) := by
    intro p hp
    obtain ⟨sl, e, h2, h3, _⟩ := hl p hp
    have hpm : (loc p).core.prevMeans = s.cltrs.means := by rw [e]; simp only [passState]; rw [hrel.cltrs p hp]
    have hpn : first = false → ∀ c, (loc p).prevNum c = (Spec.count g (assignOf s.slots) c : Int) := by
      intro hf c
      rw [e]; simp only [passState]; rw [hrel.cltrs p hp]; exact (hinv hf).1 c
    unfold afterReducePruned
    simp only [hch]
    set c : Clusters R k n :=
      if first = true then ((loc p).core.cltrs.setMeans
          fun c j => sum c j fun p => (loc p).core.cltrs.means c j).setNum
          fun c => allreduce np fun p => (loc p).core.cltrs.num c
      else
        { means := fun c j =>
            (((loc p).core.cltrs.setMeans (loc p).core.prevMeans).setNum
              (loc p).prevNum).setCompleteAll.unfinalizeAll.means c j +
            sum c j fun p => (loc p).core.cltrs.means c j
          num := fun c =>
            (((loc p).core.cltrs.setMeans (loc p).core.prevMeans).setNum
              (loc p).prevNum).setCompleteAll.unfinalizeAll.num c +
            allreduce np fun p => (loc p).core.cltrs.num c
          complete := (((loc p).core.cltrs.setMeans (loc p).core.prevMeans).setNum
              (loc p).prevNum).setCompleteAll.unfinalizeAll.complete } with hcdef
    have hcc : ∀ i, c.complete i = false := by
      intro i
      rw [hcdef]
      cases first with
      | true => simp only [if_true]; exact h3 i
      | false =>
        simp only [Bool.false_eq_true, if_false]
        exact Clusters.unfinalizeAll_complete _ i
    have hcm : ∀ i j, c.means i j = if first then sum i j fun p => (loc p).core.cltrs.means i j
         else unfin (Spec.count g (assignOf s.slots) i) (s.cltrs.means i j) +
          sum i j fun p => (loc p).core.cltrs.means i j := by
      intro i j
      rw [hcdef]
      cases hfst : first with
      | true => rfl
      | false =>
        simp only [Bool.false_eq_true, if_false]
        congr 1
        rw [Clusters.unfinalizeAll_means]
        unfold Clusters.unfinMean unfin
        rw [if_pos (show (((loc p).core.cltrs.setMeans (loc p).core.prevMeans).setNum
          (loc p).prevNum).setCompleteAll.complete i = true from rfl)]
        change (if (loc p).prevNum i < 2 then (loc p).core.prevMeans i
          else fun j => (loc p).core.prevMeans i j * (((loc p).prevNum i : Int) : R)) j = _
        rw [hpn hfst, hpm]
        by_cases h : Spec.count g (assignOf s.slots) i < 2
        · rw [if_pos (by exact_mod_cast h), if_pos h]
        · rw [if_neg (by exact_mod_cast h), if_neg h]
    have hcn : ∀ i, c.num i = (Spec.count g (assignOf slots) i : Int) := by
      intro i
      rw [hcdef]
      cases hfst : first with
      | true =>
        simp only [if_true]
        have := hnum i
        rw [hfst] at this
        change allreduce np (fun p => (loc p).core.cltrs.num i) = _
        simpa using this
      | false =>
        simp only [Bool.false_eq_true, if_false]
        rw [Clusters.unfinalizeAll_num, hnum, hfst]
        simp only [Bool.false_eq_true, if_false, Clusters.setMeans, Clusters.setNum, Clusters.setCompleteAll]
        rw [hpn hfst]
        ring
    have hchk : (List.finRange k).foldl (fun m i => m + c.num i) (0 : Int) = (g : Int) := by
      rw [Kmeans.foldl_add_eq, Kmeans.sum_finRange, zero_add]
      simp only [hcn]
      rw [← Nat.cast_sum, Kmeans.sum_count_of_all_assigned g (assignOf slots) hsome]
    rw [if_neg (by rw [hchk]; simp)]
    have hcf : c.finalizeAll = S := by
      apply Clusters.ext
      · funext i j
        rw [Clusters.finalizeAll_means]
        unfold Clusters.finMean
        rw [hcc i, hcn i]
        simp only [Bool.false_eq_true, if_false, S, finz]
        rw [← hcm i j]
        by_cases h : 1 < Spec.count g (assignOf slots) i
        · rw [if_pos (by exact_mod_cast h), if_pos h]
        · rw [if_neg (by exact_mod_cast h), if_neg h]
      · rw [Clusters.finalizeAll_num]; funext i; exact hcn i
      · funext i; rw [Clusters.finalizeAll_complete]
    rw [hcf]
    rfl
  obtain ⟨procs', e2, h2⟩ := eachRank_ok (np := np) (d := loc) fun p hp => ⟨_, hafter p hp⟩
  have hp' : ∀ p, p < np → procs' p = afterResult eucl S (if first then g
        else numChanged g (assignOf s.slots) (assignOf slots)) (loc p) := fun p hp => by
    have := h2 p hp
    rw [hafter p hp] at this
    simp only [Except.ok.injEq] at this
    exact this.symm
  refine ⟨slots, procs', fun p => (loc p).core.cltrs, S, hsl,
    by unfold iterationPrunedBy; rw [e1]; exact e2, ?_, fun _ => rfl, fun _ _ => rfl, ?_⟩
  · intro p hp
    obtain ⟨sl, _, _, _, _, _, h⟩ := hl p hp
    exact h
  have hpm : ∀ p, p < np → (loc p).core.prevMeans = s.cltrs.means := by
    intro p hp
    obtain ⟨sl, e, _⟩ := hl p hp
    rw [e]
    simp only [passState]
    rw [hrel.cltrs p hp]
  refine ⟨?_, ?_, ?_, ?_, ?_, ?_, ?_, ?_⟩
  · intro p hp; rw [hp' p hp]; rfl
  · intro p hp; rw [hp' p hp]; exact hpm p hp
  · intro p hp; rw [hp' p hp]; simp only [afterResult, hpm p hp]
  · intro p hp; rw [hp' p hp]; obtain ⟨sl, e, _⟩ := hl p hp; rw [e]; rfl
  · intro p hp; rw [hp' p hp]; obtain ⟨sl, e, _⟩ := hl p hp; rw [e]; rfl
  · intro p hp; rw [hp' p hp]; rfl
  · intro p hp; rw [hp' p hp]; rfl
  · intro p r hp hr
    rw [hp' p hp]
    obtain ⟨sl, e, h, _⟩ := hl p hp
    rw [e]
    exact h r hr

omit [NatCast R] [DecidableLT R] [LE R] [DecidableLE R] in
/-- The reduced sum of a cluster's changes. -/
theorem reducedDelta_near (hA : RoundsAll fin val u η M K) {data : Nat → Row R n} {g np nt W : Nat}
    (hS : PSizes fin val u M X K g np nt W data) {t : SumTree} (ht : t.ranks.Perm (List.range np))
    {δ : Nat → F} {j : Fin n} {x : Nat → R}
    (h : ∀ p, p < np → Near fin val u W (x p) (∑ r ∈ Finset.range (procNrow g np p), δ (off g np p + r))
      (∑ r ∈ Finset.range (procNrow g np p), |val (data (off g np p + r) j)|)) :
    Near fin val u (W + np) (t.eval x) (∑ r ∈ Finset.range g, δ r) (g * X) := by
  have hu := hA.u_nonneg
  have hnp := hS.np_pos
  have hlen : t.ranks.length = np := by rw [ht.length_eq, List.length_range]
  have e : ∀ f : Nat → F, (t.ranks.map f).sum = ∑ p ∈ Finset.range np, f p := fun f => by
    rw [← sum_map_range]; exact (ht.map f).sum_eq
  have hle : ∑ r ∈ Finset.range g, |val (data r j)| ≤ g * X := by
    refine (Finset.sum_le_sum fun r hr => (hS.rows r (Finset.mem_range.1 hr) j).2).trans ?_
    simp
  have := (near_tree hA.toRounds x _ _ t (fun p hp => h p (List.mem_range.1 (ht.mem_iff.1 hp))) (by
    rw [e, sum_procs (g := g) hnp fun r => |val (data r j)|, hlen]
    exact (mul_le_mul_of_nonneg_left hle (pow_nonneg (by linarith) _)).trans hS.sum_le)).1
  rw [e, e, sum_procs (g := g) hnp fun r => |val (data r j)|, sum_procs (g := g) hnp δ, hlen] at this
  exact (this.mono hu (by omega)).weaken hu hle

omit [NatCast R] [DecidableLT R] [LE R] [DecidableLE R] in
/-- Error of `finalize`. -/
theorem finz_near (hA : RoundsAll fin val u η M K) {c : Nat} (hc : c ≤ K) {y : R} (hy : fin y) {S e G : F}
    (he : |val y - S| ≤ e) (hSG : |S| ≤ G) (hM : G + e ≤ M) (h0 : c = 0 → S = 0) :
    fin (finz c y) ∧ ((max 1 c : Nat) : F) * |val (finz c y) - (if c = 0 then 0 else S / (c : F))| ≤
      e + u * (G + e) + c * η := by
  have hu := hA.u_nonneg
  have hη := hA.eta_nonneg
  have he0 : 0 ≤ e := (abs_nonneg _).trans he
  have hG0 : 0 ≤ G := (abs_nonneg _).trans hSG
  have hyb : |val y| ≤ G + e := by
    calc |val y| = |S + (val y - S)| := by congr 1; ring
      _ ≤ |S| + |val y - S| := abs_add_le _ _
      _ ≤ _ := add_le_add hSG he
  have hrest : 0 ≤ u * (G + e) + c * η := by positivity
  unfold finz
  by_cases h1 : 1 < c
  · rw [if_pos h1, if_neg (by omega), show max 1 c = c by omega]
    obtain ⟨cf, cv⟩ := hA.cast c hc
    have hc0 : (0 : F) < c := by exact_mod_cast (by omega : 0 < c)
    have hc1 : (1 : F) ≤ c := by exact_mod_cast h1.le
    have hq : |val y / val ((c : Int) : R)| * c = |val y| := by
      rw [cv, abs_div, abs_of_pos hc0, div_mul_cancel₀ _ hc0.ne']
    have hqM : |val y / val ((c : Int) : R)| ≤ M := by
      have : |val y / val ((c : Int) : R)| ≤ |val y / val ((c : Int) : R)| * c :=
        le_mul_of_one_le_right (abs_nonneg _) hc1
      rw [hq] at this
      linarith
    obtain ⟨f, e1⟩ := hA.div y _ hy cf (by rw [cv]; exact hc0.ne') hqM
    refine ⟨f, ?_⟩
    have e2 : (c : F) * |val (y / ((c : Int) : R)) - val y / val ((c : Int) : R)| ≤ u * (G + e) + c * η := by
      calc (c : F) * |val (y / ((c : Int) : R)) - val y / val ((c : Int) : R)|
          ≤ c * (u * |val y / val ((c : Int) : R)| + η) := mul_le_mul_of_nonneg_left e1 hc0.le
        _ = u * (|val y / val ((c : Int) : R)| * c) + c * η := by ring
        _ ≤ _ := by
          rw [hq]
          exact add_le_add (mul_le_mul_of_nonneg_left hyb hu) le_rfl
    have e3 : (c : F) * |val y / val ((c : Int) : R) - S / c| ≤ e := by
      rw [cv, ← sub_div, abs_div, abs_of_pos hc0, mul_div_cancel₀ _ hc0.ne']
      exact he
    calc (c : F) * |val (y / ((c : Int) : R)) - S / c|
        = c * |(val (y / ((c : Int) : R)) - val y / val ((c : Int) : R)) + (val y / val ((c : Int) : R) - S / c)| := by
          congr 2; ring
      _ ≤ c * (|val (y / ((c : Int) : R)) - val y / val ((c : Int) : R)| + |val y / val ((c : Int) : R) - S / c|) :=
          mul_le_mul_of_nonneg_left (abs_add_le _ _) hc0.le
      _ ≤ _ := by rw [mul_add]; linarith
  · rw [if_neg h1, show max 1 c = 1 by omega, Nat.cast_one, one_mul]
    refine ⟨hy, ?_⟩
    by_cases hz : c = 0
    · rw [if_pos hz, ← h0 hz]; linarith
    · rw [if_neg hz, show c = 1 by omega, Nat.cast_one, div_one]
      have : (c : F) = 1 := by rw [show c = 1 by omega, Nat.cast_one]
      rw [this] at hrest
      linarith

omit [NatCast R] [DecidableLT R] [LE R] [DecidableLE R] in
/-- Error of `unfinalize`. -/
theorem unfin_near (hA : RoundsAll fin val u η M K) {c : Nat} (hc : c ≤ K) {m : R} (hm : fin m) {S σ G : F}
    (he : ((max 1 c : Nat) : F) * |val m - (if c = 0 then 0 else S / (c : F))| ≤ σ) (hSG : |S| ≤ G)
    (hM : G + σ ≤ M) (h0 : c = 0 → S = 0) :
    fin (unfin c m) ∧ |val (unfin c m) - S| ≤ σ + (u * (G + σ) + η) := by
  have hu := hA.u_nonneg
  have hη := hA.eta_nonneg
  have hσ0 : 0 ≤ σ := le_trans (mul_nonneg (Nat.cast_nonneg _) (abs_nonneg _)) he
  have hG0 : 0 ≤ G := (abs_nonneg _).trans hSG
  have hrest : 0 ≤ u * (G + σ) + η := by positivity
  unfold unfin
  by_cases h2 : c < 2
  · rw [if_pos h2]
    refine ⟨hm, ?_⟩
    rw [show max 1 c = 1 by omega, Nat.cast_one, one_mul] at he
    by_cases hz : c = 0
    · rw [if_pos hz] at he
      rw [h0 hz]
      linarith
    · rw [if_neg hz, show c = 1 by omega, Nat.cast_one, div_one] at he
      linarith
  · rw [if_neg h2]
    rw [show max 1 c = c by omega, if_neg (by omega)] at he
    obtain ⟨cf, cv⟩ := hA.cast c hc
    have hc0 : (0 : F) < c := by exact_mod_cast (by omega : 0 < c)
    have e1 : |val m * val ((c : Int) : R) - S| ≤ σ := by
      rw [cv]
      calc |val m * c - S| = |c * (val m - S / c)| := by congr 1; field_simp
        _ = c * |val m - S / c| := by rw [abs_mul, abs_of_pos hc0]
        _ ≤ σ := he
    have hb : |val m * val ((c : Int) : R)| ≤ G + σ := by
      calc |val m * val ((c : Int) : R)| = |S + (val m * val ((c : Int) : R) - S)| := by congr 1; ring
        _ ≤ |S| + |val m * val ((c : Int) : R) - S| := abs_add_le _ _
        _ ≤ _ := add_le_add hSG e1
    obtain ⟨f, e2⟩ := hA.mul m _ hm cf (hb.trans hM)
    refine ⟨f, ?_⟩
    calc |val (m * ((c : Int) : R)) - S|
        = |(val (m * ((c : Int) : R)) - val m * val ((c : Int) : R)) + (val m * val ((c : Int) : R) - S)| := by
          congr 1; ring
      _ ≤ _ + _ := abs_add_le _ _
      _ ≤ (u * (G + σ) + η) + σ := add_le_add (e2.trans (add_le_add (mul_le_mul_of_nonneg_left hb hu) le_rfl)) e1
      _ = _ := by ring

/-- Bounds for the error analysis of the centroids. -/
structure PErr (u η M X G κ : F) (g W np maxIters : Nat) : Prop where
  u_le : u ≤ 1 / 8
  pow_le : (1 + u) ^ (W + np) ≤ 2
  sum_le : g * X ≤ G
  under_le : g * η ≤ u * G
  m_le : 5 * G ≤ M
  kappa : κ = ((1 + u) ^ (W + np) - 1 + 13 * u) * G
  iters_le : maxIters * κ ≤ G

omit [NatCast R] [DecidableLT R] [LE R] [DecidableLE R] in
/-- First iteration: error of a centroid. -/
theorem mean_first (hA : RoundsAll fin val u η M K) {G κ : F} {g W np maxIters : Nat}
    (hE : PErr u η M X G κ g W np maxIters) (hX : 0 ≤ X) (hK : g ≤ K) {c : Nat} (hc : c ≤ g) {z : R} {S : F}
    (hz : Near fin val u (W + np) z S (g * X)) (h0 : c = 0 → S = 0) :
    fin (finz c z) ∧ ((max 1 c : Nat) : F) * |val (finz c z) - (if c = 0 then 0 else S / (c : F))| ≤ κ := by
  have hu := hA.u_nonneg
  have hη := hA.eta_nonneg
  have hG0 : 0 ≤ G := le_trans (mul_nonneg (Nat.cast_nonneg _) hX) hE.sum_le
  set q := (1 + u) ^ (W + np) - 1 with hq
  have hq0 : 0 ≤ q := by have := one_le_pow_u hu (W + np); linarith
  have hq1 : q ≤ 1 := by have := hE.pow_le; linarith
  have hzG := hz.weaken hu hE.sum_le
  have hqG : q * G ≤ G := mul_le_of_le_one_left hG0 hq1
  have huG : 0 ≤ u * G := mul_nonneg hu hG0
  have hM := hE.m_le
  obtain ⟨f, e⟩ := finz_near hA (hc.trans hK) hz.fin hzG.err hzG.le (by linarith) h0
  refine ⟨f, e.trans ?_⟩
  have h1 : u * (G + q * G) ≤ u * (2 * G) := mul_le_mul_of_nonneg_left (by linarith) hu
  have h2 : (c : F) * η ≤ u * G :=
    (mul_le_mul_of_nonneg_right (by exact_mod_cast hc) hη).trans hE.under_le
  rw [hE.kappa, ← hq]
  linarith

omit [NatCast R] [DecidableLT R] [LE R] [DecidableLE R] in
/-- Later iterations: error of a centroid. -/
theorem mean_next (hA : RoundsAll fin val u η M K) {G κ : F} {g W np maxIters i : Nat}
    (hE : PErr u η M X G κ g W np maxIters) (hX : 0 ≤ X) (hg : 0 < g) (hK : g ≤ K) (hi : i ≤ maxIters)
    {c c' : Nat} (hc : c ≤ g) (hc' : c' ≤ g) {m z : R} {S S' : F} (hm : fin m)
    (he : ((max 1 c : Nat) : F) * |val m - (if c = 0 then 0 else S / (c : F))| ≤ i * κ)
    (hS : |S| ≤ g * X) (hS' : |S'| ≤ g * X)
    (hz : Near fin val u (W + np) z (S' - S) (g * X)) (h0 : c = 0 → S = 0) (h0' : c' = 0 → S' = 0) :
    fin (finz c' (unfin c m + z)) ∧
      ((max 1 c' : Nat) : F) * |val (finz c' (unfin c m + z)) - (if c' = 0 then 0 else S' / (c' : F))| ≤
        (i + 1 : Nat) * κ := by
  have hu := hA.u_nonneg
  have hη := hA.eta_nonneg
  have hG0 : 0 ≤ G := le_trans (mul_nonneg (Nat.cast_nonneg _) hX) hE.sum_le
  set q := (1 + u) ^ (W + np) - 1 with hq
  have hq0 : 0 ≤ q := by have := one_le_pow_u hu (W + np); linarith
  have hq1 : q ≤ 1 := by have := hE.pow_le; linarith
  have hzG := hz.weaken hu hE.sum_le
  have hqG : q * G ≤ G := mul_le_of_le_one_left hG0 hq1
  have huG : 0 ≤ u * G := mul_nonneg hu hG0
  have huG' : u * G ≤ 1 / 8 * G := mul_le_mul_of_nonneg_right hE.u_le hG0
  have hM := hE.m_le
  have hη' : η ≤ u * G := by
    refine le_trans ?_ hE.under_le
    exact le_mul_of_one_le_left hη (by exact_mod_cast hg)
  have hκ0 : 0 ≤ κ := by
    rw [hE.kappa]
    exact mul_nonneg (by rw [← hq]; linarith) hG0
  have hσ0 : 0 ≤ (i : F) * κ := mul_nonneg (Nat.cast_nonneg _) hκ0
  have hσ : (i : F) * κ ≤ G :=
    (mul_le_mul_of_nonneg_right (by exact_mod_cast hi) hκ0).trans hE.iters_le
  set σ := (i : F) * κ with hσdef
  have hSG := hS.trans hE.sum_le
  have hSG' := hS'.trans hE.sum_le
  obtain ⟨f1, e1⟩ := unfin_near hA (hc.trans hK) hm he hSG (by linarith) h0
  have h1 : u * (G + σ) ≤ u * (2 * G) := mul_le_mul_of_nonneg_left (by linarith) hu
  have e1' : |val (unfin c m) - S| ≤ σ + 3 * (u * G) := by linarith
  have ez : |val z - (S' - S)| ≤ q * G := hzG.err
  have hyz : |(val (unfin c m) + val z) - S'| ≤ σ + 3 * (u * G) + q * G := by
    calc |(val (unfin c m) + val z) - S'| = |(val (unfin c m) - S) + (val z - (S' - S))| := by congr 1; ring
      _ ≤ _ + _ := abs_add_le _ _
      _ ≤ _ := add_le_add e1' ez
  have hb : |val (unfin c m) + val z| ≤ 5 * G := by
    calc |val (unfin c m) + val z| = |S' + ((val (unfin c m) + val z) - S')| := by congr 1; ring
      _ ≤ |S'| + |(val (unfin c m) + val z) - S'| := abs_add_le _ _
      _ ≤ G + (σ + 3 * (u * G) + q * G) := add_le_add hSG' hyz
      _ ≤ _ := by linarith
  obtain ⟨f2, e2⟩ := hA.add _ _ f1 hz.fin (hb.trans hM)
  have hub : u * |val (unfin c m) + val z| ≤ u * (5 * G) := mul_le_mul_of_nonneg_left hb hu
  have e3 : |val (unfin c m + z) - S'| ≤ σ + 8 * (u * G) + q * G := by
    calc |val (unfin c m + z) - S'|
        = |(val (unfin c m + z) - (val (unfin c m) + val z)) + ((val (unfin c m) + val z) - S')| := by congr 1; ring
      _ ≤ _ + _ := abs_add_le _ _
      _ ≤ u * (5 * G) + (σ + 3 * (u * G) + q * G) := add_le_add (e2.trans hub) hyz
      _ = _ := by ring
  obtain ⟨f, e⟩ := finz_near hA (hc'.trans hK) f2 e3 hSG' (by linarith) h0'
  refine ⟨f, e.trans ?_⟩
  have h2 : u * (G + (σ + 8 * (u * G) + q * G)) ≤ u * (4 * G) := mul_le_mul_of_nonneg_left (by linarith) hu
  have h3 : (c' : F) * η ≤ u * G :=
    (mul_le_mul_of_nonneg_right (by exact_mod_cast hc') hη).trans hE.under_le
  have hκ : ((i + 1 : Nat) : F) * κ = σ + (q * G + 13 * (u * G)) := by
    rw [hσdef, Nat.cast_add, Nat.cast_one, hE.kappa, ← hq]; ring
  rw [hκ]
  linarith

/-- What holds of the shared state after `i` iterations. -/
structure PGood (fin : R → Prop) (val : R → F) (B : F) (dF : (Fin n → F) → (Fin n → F) → F) (E Dm σ : F)
    (data : Nat → Row R n) (g : Nat) (s : PState R R k n) : Prop where
  wf : DistMatrix.WF k s.dm
  num : ∀ c, s.cltrs.num c = (Spec.count g (assignOf s.slots) c : Int)
  box : ∀ c, InBox fin val B (s.cltrs.means c)
  prev : ∀ c, fin (s.prevDist c) ∧ 0 ≤ val (s.prevDist c) ∧ val (s.prevDist c) ≤ Dm
  slots : ∀ r, r < g → ∃ a, (s.slots r).assign = some a ∧ fin (s.slots r).ub ∧ 0 ≤ val (s.slots r).ub ∧
    val (s.slots r).ub ≤ Dm ∧
    trueDist val dF data s.cltrs.means r a ≤ val (s.slots r).ub + val (s.prevDist a) + E
  means : ∀ c j, ((max 1 (Spec.count g (assignOf s.slots) c) : Nat) : F) *
    |val (s.cltrs.means c j) - memberMean g (fun r j => val (data r j)) (assignOf s.slots) c j| ≤ σ

/-- One iteration of all ranks, up to rounding. -/
theorem iterationPrunedBy_good (hA : RoundsAll fin val u η M K)
    (hle : ∀ x y, fin x → fin y → (x ≤ y ↔ val x ≤ val y)) {tree : Fin k → Fin n → SumTree} {B ε Dm G κ : F}
    {eucl : Row R n → Row R n → R} {big : R} {dF : (Fin n → F) → (Fin n → F) → F} {data : Nat → Row R n}
    {g np nt W maxIters i : Nat} {sched : Nat → List Nat} {procs : Nat → DProc R R k n} {s : PState R R k n}
    (hk : 1 < k) (hD : MetricRounds fin val B eucl big dF ε Dm) (hDm : 2 * Dm ≤ M) (hDm0 : 0 ≤ Dm) (hε : 0 ≤ ε)
    (hX : 0 ≤ X) (hXB : X + maxIters * κ ≤ B)
    (hS : PSizes fin val u M X K g np nt W data) (hE : PErr u η M X G κ g W np maxIters) (hi : i < maxIters)
    (ht : ∀ c j, (tree c j).ranks.Perm (List.range np))
    (hc : ∀ p, p < np → Complete (effThreads nt (procNrow g np p))
      (Prune.taskRows (procNrow g np p) nt) (sched p))
    (hrel : Rel g np procs s) (hwf : DistMatrix.WF k s.dm) (hbox : ∀ c, InBox fin val B (s.cltrs.means c))
    (hfirst : i = 0 → ∀ r, r < g → StartSlot fin val dF ε Dm big (data r) s.cltrs.means (s.slots r))
    (hgood : i ≠ 0 → PGood fin val B dF (((i + 1 : Nat) : F) * (ε + u * (2 * Dm))) Dm (i * κ) data g s) :
    ∃ s' procs', iterationPrunedBy (fun c j x => (tree c j).eval x) eucl eucl big data g np nt (decide (i = 0)) sched
        procs = .ok procs' ∧
      Rel g np procs' s' ∧
      PGood fin val B dF (((i + 2 : Nat) : F) * (ε + u * (2 * Dm))) Dm ((i + 1 : Nat) * κ) data g s' ∧
      (∀ c, s'.counts c = (Spec.count g (assignOf s'.slots) c : Int)) ∧
      s'.changed = (if i = 0 then g else numChanged g (assignOf s.slots) (assignOf s'.slots)) ∧
      (∀ r, r < g → ∃ a, (s'.slots r).assign = some a ∧
        NearNearest 0 (((maxIters + 3 : Nat) : F) * (ε + u * (2 * Dm))) (trueDist val dF data s.cltrs.means r) a) ∧
      ∀ c j, |val (s'.cltrs.means c j) - memberMean g (fun r j => val (data r j)) (assignOf s'.slots) c j| ≤
        maxIters * κ := by
  have hu := hA.u_nonneg
  have hg0 : 0 < g := lt_of_lt_of_le hS.np_pos hS.np_le
  have hG0 : 0 ≤ G := le_trans (mul_nonneg (Nat.cast_nonneg _) hX) hE.sum_le
  have hκ0 : 0 ≤ κ := by
    rw [hE.kappa]
    have := one_le_pow_u hu (W + np)
    exact mul_nonneg (by linarith) hG0
  have hXB' : X ≤ B := by
    have : 0 ≤ (maxIters : F) * κ := mul_nonneg (Nat.cast_nonneg _) hκ0
    linarith
  have hx : ∀ r, r < g → InBox fin val B (data r) := fun r hr j =>
    ⟨(hS.rows r hr j).1, (hS.rows r hr j).2.trans hXB'⟩
  set θ := ε + u * (2 * Dm) with hθ
  have huD : 0 ≤ u * (2 * Dm) := by positivity
  have hθ0 : 0 ≤ θ := by linarith
  -- the table
  obtain ⟨m', sv', e, w, svf, g1, g2⟩ := DistMatrix.computeDist_near (big := big) (eucl := eucl)
    (cents := s.cltrs.means) hA.lt hD.big_fin hk (fun i j => (hD.half _ _ (hbox i) (hbox j)).1) s.dm s.sval hwf
  set s1 : PState R R k n := { s with dm := m', sval := sv' } with hs1
  have hcd : computeDm eucl big s = .ok s1 := by unfold computeDm; rw [e]
  -- the rows
  have hrow : ∀ r, r < g → ∃ s' a', slotStep eucl big data s1.view (decide (i = 0)) r (s.slots r) = .ok s' ∧
      s'.assign = some a' ∧ fin s'.ub ∧ 0 ≤ val s'.ub ∧ val s'.ub ≤ Dm ∧
      trueDist val dF data s.cltrs.means r a' ≤ val s'.ub + (((i + 1 : Nat) : F) * θ + u * (2 * Dm)) ∧
      NearNearest 0 (((maxIters + 3 : Nat) : F) * θ) (trueDist val dF data s.cltrs.means r) a' := by
    intro r hr
    have hM3 : (i : F) + 1 ≤ maxIters := by exact_mod_cast hi
    have hi0 : (0 : F) ≤ i := Nat.cast_nonneg _
    by_cases h0 : i = 0
    · obtain ⟨s', a', k1, k2, k3, k4, k5, k6, k7⟩ := slotStep_init_near (v := s1.view) hA.lt hD (hx r hr) hbox
        (by omega) (hfirst h0 r hr)
      refine ⟨s', a', by rw [h0]; exact k1, k2, k3, k4, k5, k6.trans ?_, fun c => ?_⟩
      · rw [h0]; simp only [zero_add, Nat.cast_one, one_mul]; linarith
      · have := k7 c
        have h3 : ε ≤ ((maxIters + 3 : Nat) : F) * θ := by
          push_cast
          have : 1 * θ ≤ ((maxIters : F) + 3) * θ := mul_le_mul_of_nonneg_right (by linarith) hθ0
          linarith
        change trueDist val dF data s.cltrs.means r a' ≤ trueDist val dF data s.cltrs.means r c + 2 * ε at this
        rw [sub_zero, one_mul, add_zero, one_mul]
        linarith
    · have hG := hgood h0
      obtain ⟨a, h1, h2, h3, h4, h5⟩ := hG.slots r hr
      have hv : ViewNear fin val B eucl big Dm s1.view := ⟨hbox, g1, svf, g2, hG.prev⟩
      have hE' : ε ≤ ((i + 1 : Nat) : F) * θ + u * (2 * Dm) := by
        push_cast
        have : 1 * θ ≤ ((i : F) + 1) * θ := mul_le_mul_of_nonneg_right (by linarith) hθ0
        linarith
      obtain ⟨s', a', k1, k2, k3, k4, k5, k6, k7⟩ := slotStep_prune_near (v := s1.view) hA.lt hle hu hA.u_le hA.add
        hDm hD (hx r hr) hv hk h1 ⟨h2, h3, h4⟩ (le_refl _) hE' h5
      refine ⟨s', a', by rw [decide_eq_false h0]; exact k1, k2, k3, k4, k5, k6, fun c => ?_⟩
      have := k7 c
      change trueDist val dF data s.cltrs.means r a' ≤ trueDist val dF data s.cltrs.means r c + _ at this
      have h6 : (((i : F) + 1) + 3) * θ ≤ ((maxIters : F) + 3) * θ := mul_le_mul_of_nonneg_right (by linarith) hθ0
      rw [sub_zero, one_mul, add_zero, one_mul]
      push_cast at this ⊢
      have h7 : 2 * ((((i : F) + 1) * θ + u * (2 * Dm))) + 4 * ε ≤ 2 * (((maxIters : F) + 3) * θ) := by
        have : 2 * ((((i : F) + 1) * θ + u * (2 * Dm))) + 4 * ε ≤ 2 * ((((i : F) + 1) + 3) * θ) := by
          rw [hθ]; nlinarith
        linarith
      linarith
  obtain ⟨slots, procs', L, S, q1, q2, q3, q4, q5, q6⟩ := iterationPrunedBy_sums (s1 := s1) hA
    (sum := fun c j x => (tree c j).eval x) hS hc hrel hcd
    (fun r hr => by obtain ⟨s', a', k1, k2, _⟩ := hrow r hr; exact ⟨s', k1, a', k2⟩)
    (fun h => by
      have h0 : i ≠ 0 := by simpa using h
      exact ⟨(hgood h0).num, fun r hr => by obtain ⟨a, h, _⟩ := (hgood h0).slots r hr; exact ⟨a, h⟩⟩)
  have hrow' : ∀ r, r < g → ∃ a', (slots r).assign = some a' ∧ fin (slots r).ub ∧ 0 ≤ val (slots r).ub ∧
      val (slots r).ub ≤ Dm ∧
      trueDist val dF data s.cltrs.means r a' ≤ val (slots r).ub + (((i + 1 : Nat) : F) * θ + u * (2 * Dm)) ∧
      NearNearest 0 (((maxIters + 3 : Nat) : F) * θ) (trueDist val dF data s.cltrs.means r) a' := by
    intro r hr
    obtain ⟨s', a', k1, k2⟩ := hrow r hr
    have := q1 r hr
    rw [k1] at this
    simp only [Except.ok.injEq] at this
    subst this
    exact ⟨a', k2⟩
  -- the centroids
  have hsum : ∀ (a : Nat → Option (Fin k)) (c : Fin k) (j : Fin n),
      |memberSum g (fun r j => val (data r j)) a c j| ≤ g * X := by
    intro a c j
    refine (Finset.abs_sum_le_sum_abs _ _).trans ((Kmeans.memberSum_abs_le hS.rows a c j).trans ?_)
    exact mul_le_mul_of_nonneg_right (by exact_mod_cast Kmeans.count_le a c) hX
  have hzero : ∀ (a : Nat → Option (Fin k)) (c : Fin k) (j : Fin n), Spec.count g a c = 0 →
      memberSum g (fun r j => val (data r j)) a c j = 0 := by
    intro a c j h
    unfold Spec.count at h
    rw [Finset.card_eq_zero] at h
    unfold memberSum
    rw [h]; simp
  have hz : ∀ c j, Near fin val u (W + np) ((tree c j).eval fun p => (L p).means c j)
      (memberSum g (fun r j => val (data r j)) (assignOf slots) c j -
        if decide (i = 0) then 0 else memberSum g (fun r j => val (data r j)) (assignOf s.slots) c j) (g * X) := by
    intro c j
    have := reducedDelta_near hA hS (ht c j) (x := fun p => (L p).means c j)
      (δ := fun r => rowDelta (decide (i = 0)) (s.slots r).assign (slots r).assign c (val (data r j)))
      (fun p hp => q3 p hp c j)
    rw [show (∑ r ∈ Finset.range g, rowDelta (decide (i = 0)) (s.slots r).assign (slots r).assign c (val (data r j))) = _
      from sum_rowDelta g (fun r => val (data r j)) (decide (i = 0)) (assignOf s.slots) (assignOf slots) c] at this
    rw [memberSum_eq, memberSum_eq]
    exact this
  have hmean : ∀ c j, fin (S.means c j) ∧ ((max 1 (Spec.count g (assignOf slots) c) : Nat) : F) *
      |val (S.means c j) - memberMean g (fun r j => val (data r j)) (assignOf slots) c j| ≤ (i + 1 : Nat) * κ := by
    intro c j
    have hzc := hz c j
    rw [q5 c j]
    by_cases h0 : i = 0
    · simp only [h0, decide_true, if_true, sub_zero] at hzc ⊢
      have := mean_first hA hE hX hS.g_le (Kmeans.count_le (N := g) (assignOf slots) c) hzc (hzero _ c j)
      refine ⟨this.1, ?_⟩
      rw [zero_add, Nat.cast_one, one_mul]
      exact this.2
    · simp only [h0, decide_false, Bool.false_eq_true, if_false] at hzc ⊢
      exact mean_next hA hE hX hg0 hS.g_le hi.le (Kmeans.count_le (N := g) (assignOf s.slots) c)
        (Kmeans.count_le (N := g) (assignOf slots) c) (((hgood h0).box c j).1) ((hgood h0).means c j) (hsum _ c j) (hsum _ c j)
        hzc (hzero _ c j) (hzero _ c j)
  have hmean' : ∀ c j, |val (S.means c j) - memberMean g (fun r j => val (data r j)) (assignOf slots) c j| ≤
      maxIters * κ := by
    intro c j
    have h1 : (1 : F) ≤ ((max 1 (Spec.count g (assignOf slots) c) : Nat) : F) := by
      exact_mod_cast le_max_left _ _
    refine (le_mul_of_one_le_left (abs_nonneg _) h1).trans ((hmean c j).2.trans ?_)
    exact mul_le_mul_of_nonneg_right (by exact_mod_cast hi) hκ0
  have hboxS : ∀ c, InBox fin val B (S.means c) := by
    intro c j
    refine ⟨(hmean c j).1, ?_⟩
    have h1 := hmean' c j
    have h2 : |memberMean g (fun r j => val (data r j)) (assignOf slots) c j| ≤ X := by
      refine le_trans ?_ (memberMean_abs_le (a := assignOf slots) hX (fun r hr j => (hS.rows r hr j).2) c j)
      unfold memberMean
      split
      · simp
      · rw [abs_div, Nat.abs_cast]
        exact div_le_div_of_nonneg_right (Finset.abs_sum_le_sum_abs _ _) (Nat.cast_nonneg _)
    calc |val (S.means c j)| = |memberMean g (fun r j => val (data r j)) (assignOf slots) c j +
          (val (S.means c j) - memberMean g (fun r j => val (data r j)) (assignOf slots) c j)| := by congr 1; ring
      _ ≤ _ + _ := abs_add_le _ _
      _ ≤ X + maxIters * κ := add_le_add h2 h1
      _ ≤ B := hXB
  have hpd := fun c => hD.near _ _ (hboxS c) (hbox c)
  refine ⟨_, procs', q2, q6, ⟨w, q4, hboxS, fun c => ⟨(hpd c).1, (hpd c).2.1, (hpd c).2.2.1⟩, ?_,
    fun c j => (hmean c j).2⟩, q4, ?_, ?_, hmean'⟩
  · intro r hr
    obtain ⟨a, h1, h2, h3, h4, h5, _⟩ := hrow' r hr
    refine ⟨a, h1, h2, h3, h4, ?_⟩
    have t1 := hD.tri (fun j => val (data r j)) (fun j => val (s.cltrs.means a j)) (fun j => val (S.means a j))
    have t2 := (abs_le.1 (hpd a).2.2.2).1
    rw [hD.symm] at t2
    have t3 : ((i + 2 : Nat) : F) * θ = ((i + 1 : Nat) : F) * θ + u * (2 * Dm) + ε := by
      push_cast; rw [hθ]; ring
    rw [t3]
    unfold trueDist at h5 ⊢
    simp only
    linarith
  · simp only [decide_eq_true_eq]
  · intro r hr
    obtain ⟨a, h1, _, _, _, _, h6⟩ := hrow' r hr
    exact ⟨a, h1, h6⟩

end Knor.Distr
