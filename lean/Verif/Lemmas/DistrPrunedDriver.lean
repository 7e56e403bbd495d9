import Verif.Lemmas.DistrDriver

namespace Knor.Init

open Knor Knor.Partition

variable {R S D : Type _} {k n : Nat}

/-! ### What the initialisation leaves in the clusters besides the means -/

/-- Counts and flags of empty clusters. -/
def Blank (c : Clusters R k n) : Prop := (∀ i, c.num i = 0) ∧ ∀ i, c.complete i = false

theorem kppPass_blank [Zero D] [Add D] [LT D] [DecidableLT D] {dist : Row R n → Row R n → D} {data : Nat → Row R n}
    {T : Nat} {todo : Nat → List Nat} {sched : List Nat} {ci : Fin k} {s : Kpp R D k n} {x : Kpp R D k n × D}
    (h : kppPass dist data T todo sched ci s = .ok x) : x.1.cltrs = s.cltrs := by
  unfold kppPass at h
  split at h
  · cases h
  · rw [← Except.ok.inj h]

theorem kppPassDist_blank [Zero D] [Add D] [LT D] [DecidableLT D] {dist : Row R n → Row R n → D}
    {data : Nat → Row R n} {g np : Nat} {T : Nat → Nat} {todo : Nat → Nat → List Nat} {sched : Nat → List Nat}
    {ci : Fin k} {s s' : Nat → Kpp R D k n} {d : D} (h : kppPassDist dist data g np T todo sched ci s = .ok (s', d))
    (hb : ∀ p, p < np → Blank (s p).cltrs) : ∀ p, p < np → Blank (s' p).cltrs := by
  unfold kppPassDist at h
  split at h
  · cases h
  · rename_i loc e
    obtain ⟨rfl, -⟩ := Prod.mk.inj (Except.ok.inj h)
    intro p hp
    dsimp only
    rw [kppPass_blank (Distr.eachRank_inv e p hp)]
    exact hb p hp

theorem reduceMeans_blank [Zero R] [Add R] {np : Nat} {s : Nat → Kpp R D k n}
    (hb : ∀ p, p < np → Blank (s p).cltrs) : ∀ p, p < np → Blank (reduceMeans np s p).cltrs := hb

theorem kppLoopDist_blank [Zero R] [Add R] [Zero D] [Add D] [Sub D] [Mul D] [Div D] [NatCast D]
    [LT D] [DecidableLT D] [LE D] [DecidableLE D] {zeroIt : Bool} {dist : Row R n → Row R n → D}
    {data : Nat → Row R n} {g np nt : Nat} {T : Nat → Nat} {todo : Nat → Nat → List Nat}
    {sched : Nat → Nat → List Nat} {u : Nat → D} (l : List (Fin k)) :
    ∀ (ci : Fin k) (s s' : Nat → Kpp R D k n), kppLoopDist zeroIt dist data g np nt T todo sched u l ci s = .ok s' →
      (∀ p, p < np → Blank (s p).cltrs) → ∀ p, p < np → Blank (s' p).cltrs := by
  induction l with
  | nil =>
    intro ci s s' h hb
    unfold kppLoopDist at h
    split at h
    · cases h
    · rename_i e
      obtain rfl := Except.ok.inj h
      exact kppPassDist_blank e hb
  | cons c l ih =>
    intro ci s s' h hb
    unfold kppLoopDist at h
    split at h
    · cases h
    · rename_i s1 total e
      have h1 := kppPassDist_blank e hb
      dsimp only at h
      split at h
      · split at h
        · exact ih _ _ _ h (reduceMeans_blank h1)
        · cases h
      · split at h
        · cases h
        · rename_i s2 e2
          split at h
          · refine ih _ _ _ h (reduceMeans_blank fun p hp => ?_)
            have h2 := Distr.eachRank_inv e2 p hp
            unfold chooseDist at h2
            split at h2
            · split at h2
              · cases h2
              · split at h2
                · cases h2
                · rw [← Except.ok.inj h2]
                  exact h1 p hp
            · rw [← Except.ok.inj h2]
              exact ⟨fun _ => rfl, fun _ => rfl⟩
          · cases h

theorem kppDist_blank [Zero R] [Add R] [Zero D] [Add D] [Sub D] [Mul D] [Div D] [NatCast D]
    [LT D] [DecidableLT D] [LE D] [DecidableLE D] {zeroIt : Bool} {dist : Row R n → Row R n → D}
    {data : Nat → Row R n} {g np nt : Nat} {T : Nat → Nat} {todo : Nat → Nat → List Nat}
    {sched : Nat → Nat → List Nat} {first : Nat} {u : Nat → D} {s s' : Nat → Kpp R D k n}
    (h : kppDist zeroIt dist data g np nt T todo sched first u s = .ok s')
    (hb : ∀ p, p < np → Blank (s p).cltrs) : ∀ p, p < np → Blank (s' p).cltrs := by
  unfold kppDist at h
  split at h
  · cases h
  · split at h
    · cases h
    · rename_i s1 e
      refine kppLoopDist_blank _ _ _ _ h (reduceMeans_blank fun p hp => ?_)
      have h2 := Distr.eachRank_inv e p hp
      unfold firstDist at h2
      split at h2
      · split at h2
        · cases h2
        · split at h2
          · cases h2
          · rw [← Except.ok.inj h2]
            exact hb p hp
      · rw [← Except.ok.inj h2]
        exact hb p hp

theorem forgyLoopDist_blank {draw : S → Nat × S} {data : Nat → Row R n} {g np p nt : Nat} (l : List (Fin k)) :
    ∀ (s : S) (c c' : Clusters R k n), forgyLoopDist draw data g np p nt l s c = .ok c' → Blank c → Blank c' := by
  induction l with
  | nil =>
    intro s c c' h hb
    rw [← Except.ok.inj h]
    exact hb
  | cons i l ih =>
    intro s c c' h hb
    unfold forgyLoopDist at h
    split at h
    · split at h
      · cases h
      · split at h
        · cases h
        · exact ih _ _ _ h hb
    · exact ih _ _ _ h hb

theorem forgyDist_blank [Zero R] [Add R] {draw : S → Nat × S} {seed : S} {data : Nat → Row R n} {g np nt : Nat}
    {cs cs' : Nat → Clusters R k n} (h : forgyDist draw seed data g np nt cs = .ok cs')
    (hb : ∀ p, p < np → Blank (cs p)) : ∀ p, p < np → Blank (cs' p) := by
  unfold forgyDist at h
  split at h
  · cases h
  · rename_i loc e
    intro p hp
    rw [← Except.ok.inj h]
    have : Blank (loc p) := forgyLoopDist_blank _ _ _ _ (Distr.eachRank_inv e p hp) (hb p hp)
    exact this

theorem randomDist_complete [Zero R] [Add R] [Div R] [IntCast R] {draw : S → Fin k × S} {seed : S}
    {data : Nat → Row R n} {g np nt : Nat} {st st' : Nat → Clusters R k n × (Nat → Option (Fin k))}
    (h : randomDist draw seed data g np nt st = .ok st') (p : Nat) (c : Fin k) : (st' p).1.complete c = true := by
  unfold randomDist at h
  split at h
  · cases h
  · rw [← Except.ok.inj h]
    exact Clusters.finalizeAll_complete _ c

end Knor.Init

namespace Knor.Driver

open Knor Knor.Spec Knor.Io Knor.Partition Knor.Par Knor.Init

variable {R S B : Type _} {k n : Nat}

/-- What all ranks hold after the initialisation. -/
theorem runInitDistPruned_ok [Field R] [LinearOrder R] [IsStrictOrderedRing R] (dist : Row R n → Row R n → R) (big : R)
    (rng : Rng R S k) (data data' : Nat → Row R n) (g np nt : Nat) (hdata : ∀ r, r < g → data r = data' r)
    (hk : 1 < k) (hnp : 0 < np) (hg : np ≤ g) (hnt : 0 < nt) (hlt : g + 8192 < 4294967296) (hrng : RngOk rng g)
    (sched : Nat → Nat → List Nat) (hc : Distr.TaskSchedOk g np nt sched)
    (it : InitT) (hpp : it = .plusplus → Seedable dist big data' g) (given : Option (Nat → Nat → R))
    (hb : it ≠ .plusplus → ∀ c0, StartsAt it dist data' g rng (givenCents given) c0 →
      ∀ r, r < g → ∃ c : Fin k, dist (data' r) (c0 c) < big) :
    ∃ s0 procs s, constructPruned big it (given.map fun g => rowsFrom g n 0 k) = .ok s0 ∧
      runInitDistPruned dist rng data g np nt sched it s0 = .ok procs ∧
      StartsAt it dist data' g rng (givenCents given) s.cltrs.means ∧ Distr.Rel g np procs s ∧
      DistMatrix.WF k s.dm ∧
      (∀ r, r < g → (∃ c, dist (data r) (s.cltrs.means c) < (s.slots r).ub) ∨
        ∃ c, (s.slots r).assign = some c ∧ (s.slots r).ub = dist (data r) (s.cltrs.means c)) ∧
      (it = .plusplus → ∀ r, r < g → ∃ c, (s.slots r).assign = some c ∧
        IsNearest (fun c => dist (data' r) (s.cltrs.means c)) c) := by
  obtain ⟨s0, e0, ec, em, h1, h2, h3, h4⟩ := constructPruned_ok (k := k) (n := n) big hk it given
  obtain ⟨m', em', wf, -⟩ := DistMatrix.create_wf (big := big) (k := k) hk
  rw [em] at em'
  obtain rfl := Except.ok.inj em'
  obtain ⟨c0, ec', k0, k1⟩ := construct_ok (k := k) (n := n) (by omega) it given
  rw [ec] at ec'
  obtain rfl := Except.ok.inj ec'
  refine ⟨s0, ?_⟩
  cases it with
  | none =>
    have hst : StartsAt .none dist data' g rng (givenCents given) s0.cltrs.means := by
      obtain ⟨w1, w2⟩ := k1 rfl
      refine ⟨fun g hg => ?_, fun hg => w2 (by unfold givenCents at hg; simpa using hg)⟩
      cases given with
      | none => cases hg
      | some g' =>
        rw [← Option.some.inj hg]
        exact w1 g' rfl
    refine ⟨_, { s0 with counts := s0.cltrs.num }, e0, rfl, hst, ⟨fun _ _ => rfl, fun _ _ => rfl, fun _ _ => rfl,
      fun _ _ => rfl, fun _ _ => rfl, fun _ _ => rfl, fun _ _ => rfl, fun p r _ _ => ?_⟩, wf, fun r hr => .inl ?_,
      fun h => by cases h⟩
    · dsimp only
      rw [h3, h3]
    · obtain ⟨c, h⟩ := hb (by decide) _ hst r hr
      exact ⟨c, by dsimp only; rw [h3, hdata r hr]; exact h⟩
  | forgy =>
    have hemp := k0 (by decide)
    have hbl : Blank s0.cltrs := by rw [hemp]; exact ⟨fun _ => rfl, fun _ => rfl⟩
    obtain ⟨cs, e, h⟩ := C27_distributed_forgy (k := k) rng.row rng.seed data g np nt hnp hnt (by omega) hrng.row
      (fun _ => s0.cltrs) (fun _ _ _ _ => by rw [hemp]; rfl)
    have hbl' := forgyDist_blank e fun _ _ => hbl
    have hst : StartsAt .forgy dist data' g rng (givenCents given) (cs 0).means := fun c => by
      obtain ⟨r, hr, q1, q2⟩ := h 0 hnp c
      exact ⟨r, hr, q1, by rw [← hdata r hr]; exact q2⟩
    have hcs : ∀ p, p < np → cs p = cs 0 := fun p hp => by
      apply Clusters.ext
      · funext c
        obtain ⟨r, hr, q1, q2⟩ := h 0 hnp c
        obtain ⟨r', hr', q1', q2'⟩ := h p hp c
        rw [q1] at q1'
        rw [q2, q2', Option.some.inj q1']
      · funext c
        rw [(hbl' p hp).1, (hbl' 0 hnp).1]
      · funext c
        rw [(hbl' p hp).2, (hbl' 0 hnp).2]
    refine ⟨_, { s0 with cltrs := cs 0, counts := (cs 0).num }, e0, by unfold runInitDistPruned; dsimp only; rw [e], hst,
      ⟨fun p hp => hcs p hp, fun _ _ => rfl, fun _ _ => rfl, fun _ _ => rfl, fun _ _ => rfl,
        fun p hp => by dsimp only; rw [hcs p hp], fun _ _ => rfl, fun p r _ _ => by dsimp only; rw [h3, h3]⟩, wf,
      fun r hr => .inl ?_, fun h => by cases h⟩
    obtain ⟨c, h⟩ := hb (by decide) _ hst r hr
    exact ⟨c, by dsimp only; rw [h3, hdata r hr]; exact h⟩
  | random =>
    have hemp := k0 (by decide)
    obtain ⟨st, A, e, q1, q2⟩ := C28_C31_distributed_random_partition rng.clust rng.seed data g np nt hnp hnt
      (by omega) (fun _ => (s0.cltrs, fun r => (s0.slots r).assign)) (fun _ _ => hemp)
    have hst : StartsAt .random dist data' g rng (givenCents given) (st 0).1.means :=
      ⟨A, q1, fun c j => by rw [← memberMean_data hdata]; exact (q2 0 hnp).2.2 c j⟩
    have hcs : ∀ p, p < np → (st p).1 = (st 0).1 := fun p hp => by
      apply Clusters.ext
      · funext c j
        rw [(q2 p hp).2.2, (q2 0 hnp).2.2]
      · funext c
        rw [(q2 p hp).2.1, (q2 0 hnp).2.1]
      · funext c
        rw [randomDist_complete e, randomDist_complete e]
    refine ⟨_, { s0 with
        cltrs := (st 0).1
        slots := fun r => { s0.slots r with assign := A r }
        counts := (st 0).1.num }, e0, by unfold runInitDistPruned; dsimp only; rw [e], hst,
      ⟨fun p hp => hcs p hp, fun _ _ => rfl, fun _ _ => rfl, fun _ _ => rfl, fun _ _ => rfl,
        fun p hp => by dsimp only; rw [hcs p hp], fun _ _ => rfl, fun p r hp hr => ?_⟩, wf,
      fun r hr => .inl ?_, fun h => by cases h⟩
    · dsimp only
      rw [h3, h3, (q2 p hp).1 r hr]
      rfl
    · obtain ⟨c, h⟩ := hb (by decide) _ hst r hr
      exact ⟨c, by dsimp only; rw [h3, hdata r hr]; exact h⟩
  | plusplus =>
    have hemp := k0 (by decide)
    have hsp : ∀ p, p < np → Split (procNrow g np p) (effThreads nt (procNrow g np p))
        (Prune.taskRows (procNrow g np p) nt) := fun p hp => by
      have := Distr.procNrow_le (g := g) hp
      exact Prune.split_taskRows (Distr.procNrow_pos hnp hg) hnt (by omega)
    obtain ⟨ps, c0, sl, e, hs, h, hn⟩ := kppDist_ok true dist big rng data data' g np nt hdata (by omega) hnp hg hnt
      (by omega) hrng _ _ hsp sched hc (hpp rfl) (givenCents given)
    have hbl := kppDist_blank e fun _ _ => ⟨fun _ => rfl, fun _ => rfl⟩
    have e' : kppDist true dist data g np nt (fun p => effThreads nt (procNrow g np p))
        (fun p => Prune.taskRows (procNrow g np p) nt) sched (rng.row rng.seed).1
        (fun i => (rng.unit (Init.skip rng.unit i (rng.row rng.seed).2)).1)
        (fun _ => ⟨s0.cltrs, fun r => ⟨(s0.slots r).ub, (s0.slots r).assign⟩⟩) = .ok ps := by
      rw [← e, hemp]
      simp only [h3]
    have hcs : ∀ p, p < np → (ps p).cltrs = (ps 0).cltrs := fun p hp => by
      apply Clusters.ext
      · rw [(h p hp).1, (h 0 hnp).1]
      · funext c
        rw [(hbl p hp).1, (hbl 0 hnp).1]
      · funext c
        rw [(hbl p hp).2, (hbl 0 hnp).2]
    refine ⟨_, { s0 with
        cltrs := (ps 0).cltrs
        slots := fun r => { s0.slots r with assign := (sl r).assign, ub := (sl r).dist }
        counts := (ps 0).cltrs.num }, e0, by unfold runInitDistPruned; dsimp only; rw [e'], ?_,
      ⟨fun p hp => hcs p hp, fun _ _ => rfl, fun _ _ => rfl, fun _ _ => rfl, fun _ _ => rfl,
        fun p hp => by dsimp only; rw [hcs p hp], fun _ _ => rfl, fun p r hp hr => ?_⟩, wf, fun r hr => .inr ?_,
      fun _ r hr => ?_⟩
    · dsimp only
      rw [(h 0 hnp).1]
      exact hs
    · dsimp only
      rw [h3, h3, (h p hp).2 r hr]
    · obtain ⟨c, w1, w2, _⟩ := hn r hr
      exact ⟨c, w1, by dsimp only; rw [(h 0 hnp).1]; exact w2⟩
    · obtain ⟨c, w1, _, w3⟩ := hn r hr
      exact ⟨c, w1, by dsimp only; rw [(h 0 hnp).1, ← hdata r hr]; exact w3⟩

end Knor.Driver

namespace Knor.Distr

open Knor Knor.Par Knor.Partition Knor.Spec

variable {R D : Type _} {k n : Nat}

/-- The run for any metric: always a partition with its sizes and means. -/
theorem runPruned_partition [Field R] [LinearOrder R] [CharZero R] [Field D] [LinearOrder D]
    {dist eucl : Row R n → Row R n → D} {big : D} {data : Nat → Row R n} {g np nt : Nat} {tol : R} {maxIters : Nat}
    (hk : 1 < k) (hnp : 0 < np) (hg : np ≤ g) (hlt : g + 8192 < 4294967296) (hnt : 0 < nt)
    {procs : Nat → DProc R D k n} {s0 : Prune.PState R D k n}
    (hrel0 : Rel g np procs s0) (hwf0 : DistMatrix.WF k s0.dm)
    {sched : Nat → Nat → List Nat} (hc : TaskSchedOk g np nt sched)
    (hrow0 : ∀ r, r < g → (∃ c, dist (data r) (s0.cltrs.means c) < (s0.slots r).ub) ∨
      ∃ c, (s0.slots r).assign = some c ∧ (s0.slots r).ub = dist (data r) (s0.cltrs.means c))
    (hmax : 0 < maxIters) :
    ∃ res v, runPruned dist eucl big data g np nt tol maxIters sched procs = .ok res ∧
      gather g np (fun p r => ((res.procs p).core.slots r).assign) = .ok v ∧
      1 ≤ res.iters ∧ res.iters ≤ maxIters ∧
      (∀ r, r < g → ∃ c, v r = some c) ∧
      (∀ p, p < np → (∀ c, (res.procs p).core.counts c = (Spec.count g v c : Int)) ∧
        ∀ c j, (res.procs p).core.cltrs.means c j = memberMean g data v c j) ∧
      (res.iters = 1 → ∀ r, r < g → ∃ c, v r = some c ∧ IsNearest (fun c => dist (data r) (s0.cltrs.means c)) c) := by
  let Inv : Nat → (Nat → DProc R D k n) → Prop := fun i ps =>
    ∃ s, Rel g np ps s ∧ DistMatrix.WF k s.dm ∧ (i = 0 → s = s0) ∧ (i ≠ 0 → Prune.Consistent data g s) ∧
      (i = 1 → ∀ r, r < g → ∃ c, (s.slots r).assign = some c ∧ IsNearest (fun c => dist (data r) (s0.cltrs.means c)) c)
  unfold runPruned
  rw [construct_ok hnp hg]
  simp only
  obtain ⟨res, e, ⟨s, hrel, _, _, hcon, hone⟩, _, h2, h3⟩ := loop_inv
    (stop := fun s : DProc R D k n => Kmeans.convTest g tol s.core.changed)
    (body := fun i => iterationPruned dist eucl big data g np nt (decide (i = 0)) (sched i))
    hnp hmax Inv
    (by
      rintro i ps hi ⟨s, hrel, hwf, hz, hcon, _⟩ _
      obtain ⟨m, sv, e, w⟩ := Prune.computeDm_wf (eucl := eucl) (big := big) hk hwf
      set s1 : Prune.PState R D k n := { s with dm := m, sval := sv } with hs1
      have hrow : ∀ r, r < g → ∃ s', Prune.slotStep dist big data s1.view (decide (i = 0)) r (s1.slots r) = .ok s' ∧
          (∃ c, s'.assign = some c) ∧ (i = 0 → ∃ c, s'.assign = some c ∧
            IsNearest (fun c => dist (data r) (s0.cltrs.means c)) c) := by
        intro r hr
        by_cases h0 : i = 0
        · obtain rfl := hz h0
          obtain ⟨s', c, q1, q2, _, q4⟩ := Prune.slotStep_init dist big data s1.view r (s1.slots r) (hrow0 r hr)
          exact ⟨s', by simpa [h0] using q1, ⟨c, q2⟩, fun _ => ⟨c, q2, q4⟩⟩
        · obtain ⟨a, ha⟩ := (hcon h0).assigned r hr
          obtain ⟨s', hs'⟩ := Prune.slotStep_false_some (dist := dist) (big := big) (data := data) (v := s1.view) w
            (r := r) (s := s1.slots r) ha
          exact ⟨s', by simpa [h0] using hs', (Prune.slotStep_ok hs').1, fun h => absurd h h0⟩
      obtain ⟨slots, ps', q1, _, q3, q4⟩ := iterationPruned_sim (dist := dist) (first := decide (i = 0)) (s1 := s1) hnp
        hg hnt hlt (hc i) hrel e
        (fun r hr => by obtain ⟨s', k1, k2, _⟩ := hrow r hr; exact ⟨s', k1, k2⟩)
        (fun h => ⟨(hcon (by simpa using h)).cltrs, (hcon (by simpa using h)).assigned⟩)
      have hrow' : ∀ r, r < g → (∃ c, (slots r).assign = some c) ∧ (i = 0 → ∃ c, (slots r).assign = some c ∧
            IsNearest (fun c => dist (data r) (s0.cltrs.means c)) c) := by
        intro r hr
        obtain ⟨s', k1, k2, k3⟩ := hrow r hr
        have := q1 r hr
        rw [k1] at this
        obtain rfl := Except.ok.inj this
        exact ⟨k2, k3⟩
      refine ⟨ps', q3, ⟨_, q4, w, fun h => by omega, fun _ => ⟨rfl, fun r hr => (hrow' r hr).1, fun _ => rfl, w⟩,
        fun h r hr => (hrow' r hr).2 (by omega)⟩, fun p hp => ?_⟩
      rw [q4.changed p hp, q4.changed 0 hnp])
    maxIters 0 procs (by omega) (by omega) ⟨s0, hrel0, hwf0, fun _ => rfl, fun h => absurd rfl h, fun h => by omega⟩
    (Or.inl rfl)
  have hit : res.iters ≠ 0 := by
    rcases h3 with ⟨h, _⟩ | ⟨h, _⟩ <;> omega
  have hco := hcon hit
  obtain ⟨v, ev, hv⟩ := gather_eq (g := g) hnp (fun p r => ((res.procs p).core.slots r).assign)
  have hvr : ∀ r, r < g → v r = Prune.assignOf s.slots r := by
    intro r hr
    obtain ⟨p, q, hp, hq, rfl⟩ := exists_off hnp hr
    rw [hv p q hp hq, hrel.slots p q hp hq]
    rfl
  refine ⟨res, v, e, ev, by omega, h2, fun r hr => ?_, fun p hp => ⟨fun c => ?_, fun c j => ?_⟩, fun h1 r hr => ?_⟩
  · rw [hvr r hr]
    exact hco.assigned r hr
  · rw [hrel.counts p hp, hco.counts, Kmeans.count_congr hvr]
  · rw [hrel.cltrs p hp, hco.cltrs, Kmeans.memberMean_congr' hvr]
    rfl
  · rw [hvr r hr]
    exact hone h1 r hr

end Knor.Distr
