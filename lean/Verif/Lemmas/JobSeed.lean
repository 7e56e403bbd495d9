import Verif.Lemmas.JobNear

/-!
# k-means++ of a distributed job on doubles
-/

namespace Knor.Init

open Knor Knor.Spec Knor.Par Knor.Partition Knor.Distr Knor.NearLloyd Knor.Kmeans

variable {R S : Type _} {k n : Nat} [Zero R] [Add R] [Sub R] [Mul R] [Div R] [IntCast R] [NatCast R] [LT R] [LE R]
  {fin : R → Prop} {val : R → ℝ} {sqrt abs' : R → R}

/-- `y` has the values of `x`; it may differ in the sign of zeros. -/
def Copy (fin : R → Prop) (val : R → ℝ) (y x : Row R n) : Prop := ∀ j, fin (y j) ∧ val (y j) = val (x j)

/-- What k-means++ on doubles needs of the computed distances between rows and copies of rows. -/
structure SeedCopies (fin : R → Prop) (val : R → ℝ) (dist : Row R n → Row R n → R) (big : R) (data : Nat → Row R n)
    (N : Nat) (dF : (Fin n → ℝ) → (Fin n → ℝ) → ℝ) (γ ζ : ℝ) : Prop where
  rowFin : ∀ r, r < N → ∀ j, fin (data r j)
  bigFin : fin big
  dist : ∀ q r y, q < N → r < N → Copy fin val y (data r) → fin (dist (data q) y) ∧ 0 ≤ val (dist (data q) y) ∧
    val (dist (data q) y) ≤ 2 ^ (900 : Int) ∧ val (dist (data q) y) < val big ∧
    ((∀ j, val (data q j) = val (y j)) → val (dist (data q) y) = 0) ∧
    |val (dist (data q) y) - dF (fun j => val (data q j)) fun j => val (y j)| ≤
      γ * dF (fun j => val (data q j)) (fun j => val (y j)) + ζ

/-- `NearMinTo` at one row. -/
def NearAt (dF : (Fin n → ℝ) → (Fin n → ℝ) → ℝ) (γ ζ : ℝ) (x : Fin n → ℝ) (chosen : Fin k → Prop)
    (cents : Fin k → Fin n → ℝ) (d : ℝ) : Prop :=
  0 ≤ d ∧ (∃ c, chosen c ∧ |d - dF x (cents c)| ≤ γ * dF x (cents c) + ζ) ∧
    ∀ c, chosen c → d ≤ (1 + γ) * dF x (cents c) + ζ ∧ (x = cents c → d = 0)

theorem NearAt.congr {dF : (Fin n → ℝ) → (Fin n → ℝ) → ℝ} {γ ζ : ℝ} {x : Fin n → ℝ} {chosen chosen' : Fin k → Prop}
    {cents cents' : Fin k → Fin n → ℝ} {d : ℝ} (h : NearAt dF γ ζ x chosen cents d) (hc : ∀ c, chosen c ↔ chosen' c)
    (he : ∀ c, chosen c → cents c = cents' c) : NearAt dF γ ζ x chosen' cents' d := by
  obtain ⟨h0, ⟨c, h1, h2⟩, h3⟩ := h
  refine ⟨h0, ⟨c, (hc c).1 h1, by rw [← he c h1]; exact h2⟩, fun c hc' => ?_⟩
  rw [← he c ((hc c).2 hc')]
  exact h3 c ((hc c).2 hc')

/-- The stored number of a row before the pass for centre `ci`. -/
def SlotPre (fin : R → Prop) (val : R → ℝ) (big : R) (dF : (Fin n → ℝ) → (Fin n → ℝ) → ℝ) (γ ζ : ℝ)
    (chosen : Fin k → Prop) (ci : Fin k) (cm : Fin k → Row R n) (x : Row R n) (v : R) : Prop :=
  fin v ∧ ((∀ c, chosen c → c = ci) ∧ val v = val big ∨
    val v = 0 ∧ (∀ j, val (x j) = val (cm ci j)) ∨
    NearAt dF γ ζ (fun j => val (x j)) (fun c => chosen c ∧ c ≠ ci) (fun c j => val (cm c j)) (val v) ∧
      val v ≤ 2 ^ (900 : Int))

/-- … and after it. -/
def SlotPost (fin : R → Prop) (val : R → ℝ) (dF : (Fin n → ℝ) → (Fin n → ℝ) → ℝ) (γ ζ : ℝ)
    (chosen : Fin k → Prop) (cm : Fin k → Row R n) (x : Row R n) (v : R) : Prop :=
  fin v ∧ NearAt dF γ ζ (fun j => val (x j)) chosen (fun c j => val (cm c j)) (val v) ∧ val v ≤ 2 ^ (900 : Int)

/-- The assignment of a row belongs to its number: nothing is known yet, or the number is the computed distance to a copy
of the centre, or the row is the centre. -/
def Own (fin : R → Prop) (val : R → ℝ) (dist : Row R n → Row R n → R) (big : R) (chosen : Fin k → Prop)
    (cm : Fin k → Row R n) (x : Row R n) (m : KppSlot R k) : Prop :=
  m.dist = big ∨ ∃ a, m.assign = some a ∧ chosen a ∧
    ((∃ y, Copy fin val y (cm a) ∧ m.dist = dist x y) ∨ m.dist = 0 ∧ ∀ j, val (x j) = val (cm a j))

omit [Add R] [Sub R] [Mul R] [Div R] [IntCast R] [NatCast R] [LE R] in
theorem own_pass [DecidableLT R] {dist : Row R n → Row R n → R} {big : R} {chosen : Fin k → Prop} {ci : Fin k}
    (hci : chosen ci) {cm : Fin k → Row R n} (hf : ∀ j, fin (cm ci j)) {x : Row R n} {m : KppSlot R k}
    (h : Own fin val dist big chosen cm x m) : Own fin val dist big chosen cm x (newSlot (dist x (cm ci)) ci m) := by
  unfold newSlot
  split
  · exact Or.inr ⟨ci, rfl, hci, Or.inl ⟨cm ci, fun j => ⟨hf j, rfl⟩, rfl⟩⟩
  · exact h

theorem slot_pass [DecidableLT R] (hI : IeeeDouble fin val sqrt abs') {dist : Row R n → Row R n → R} {big : R}
    {data : Nat → Row R n} {N : Nat} {dF : (Fin n → ℝ) → (Fin n → ℝ) → ℝ} {γ ζ : ℝ}
    (hS : SeedCopies fin val dist big data N dF γ ζ) {chosen : Fin k → Prop} {ci : Fin k} (hci : chosen ci)
    {cm : Fin k → Row R n} (hrows : ∀ c, chosen c → ∃ w, w < N ∧ Copy fin val (cm c) (data w)) {r : Nat} (hr : r < N)
    {m : KppSlot R k} (h : SlotPre fin val big dF γ ζ chosen ci cm (data r) m.dist) :
    SlotPost fin val dF γ ζ chosen cm (data r) (newSlot (dist (data r) (cm ci)) ci m).dist := by
  obtain ⟨hf, h⟩ := h
  obtain ⟨w, hw, hcp⟩ := hrows ci hci
  obtain ⟨d1, d2, d3, d4, d5, d6⟩ := hS.dist r w (cm ci) hr hw hcp
  obtain ⟨n1, n2⟩ := newSlot_val (ci := ci) hI d1 hf
  have n3 := congrArg KppSlot.dist n2
  dsimp only at n3
  refine ⟨n1, ?_⟩
  rw [n3]
  have hup : ∀ c, chosen c → 0 ≤ (1 + γ) * dF (fun j => val (data r j)) (fun j => val (cm c j)) + ζ := by
    intro c hc
    obtain ⟨w, hw, hcp⟩ := hrows c hc
    obtain ⟨_, e2, _, _, _, e6⟩ := hS.dist r w (cm c) hr hw hcp
    have := (abs_le.1 e6).2
    linarith
  have hup1 := (abs_le.1 d6).2
  have hnear : NearAt dF γ ζ (fun j => val (data r j)) (fun c => c = ci) (fun c j => val (cm c j))
      (val (dist (data r) (cm ci))) := by
    refine ⟨d2, ⟨ci, rfl, d6⟩, ?_⟩
    rintro c rfl
    exact ⟨by dsimp only; linarith, fun h => d5 fun j => congrFun h j⟩
  rcases h with ⟨h1, h2⟩ | ⟨h1, h2⟩ | ⟨h1, h2⟩
  · rw [show (newSlot (val (dist (data r) (cm ci))) ci (⟨val m.dist, m.assign⟩ : KppSlot ℝ k)).dist =
      val (dist (data r) (cm ci)) by unfold newSlot; rw [h2, if_pos d4]]
    exact ⟨hnear.congr (fun c => ⟨fun h => h ▸ hci, h1 c⟩) fun _ _ => rfl, d3⟩
  · have hz := d5 h2
    rw [show (newSlot (val (dist (data r) (cm ci))) ci (⟨val m.dist, m.assign⟩ : KppSlot ℝ k)).dist = 0 by
      unfold newSlot; rw [h1, hz, if_neg (lt_irrefl _)]]
    rw [hz] at d6
    exact ⟨⟨le_rfl, ⟨ci, hci, d6⟩, fun c hc => ⟨hup c hc, fun _ => rfl⟩⟩, (p_pos _).le⟩
  · obtain ⟨a0, ⟨c1, a1, a2⟩, a3⟩ := h1
    unfold newSlot
    dsimp only
    by_cases hlt : val (dist (data r) (cm ci)) < val m.dist
    · rw [if_pos hlt]
      dsimp only
      refine ⟨⟨d2, ⟨ci, hci, d6⟩, fun c hc => ?_⟩, d3⟩
      by_cases e : c = ci
      · exact hnear.2.2 c e
      · obtain ⟨b1, b2⟩ := a3 c ⟨hc, e⟩
        exact ⟨hlt.le.trans b1, fun h => le_antisymm (hlt.le.trans (b2 h).le) d2⟩
    · rw [if_neg hlt]
      dsimp only
      have hlt := not_lt.1 hlt
      refine ⟨⟨a0, ⟨c1, a1.1, a2⟩, fun c hc => ?_⟩, h2⟩
      by_cases e : c = ci
      · obtain ⟨b1, b2⟩ := hnear.2.2 c e
        exact ⟨hlt.trans b1, fun h => le_antisymm (hlt.trans (b2 h).le) a0⟩
      · exact a3 c ⟨hc, e⟩

/-- The passes of all ranks for one centre. -/
theorem kppPassDistBy_near [DecidableLT R] (hI : IeeeDouble fin val sqrt abs') {dist : Row R n → Row R n → R} {big : R}
    {data : Nat → Row R n} {g np W : Nat} {dF : (Fin n → ℝ) → (Fin n → ℝ) → ℝ} {γ ζ : ℝ}
    (hS : SeedCopies fin val dist big data g dF γ ζ) (hnp : 0 < np) (hg : np ≤ g) (hlt : g < 4294967296)
    {T : Nat → Nat} {todo : Nat → Nat → List Nat} (hsp : ∀ p, p < np → Split (procNrow g np p) (T p) (todo p))
    {L : Nat → Nat} (hL : ∀ p, p < np → ∀ t, (todo p t).length ≤ L p) (hLT : ∀ p, p < np → L p + T p ≤ W)
    (hW : W + np ≤ 2 ^ 34) {sched : Nat → List Nat} (hc : ∀ p, p < np → Complete (T p) (todo p) (sched p))
    {tree : SumTree} (ht : tree.ranks.Perm (List.range np))
    {chosen : Fin k → Prop} {ci : Fin k} (hci : chosen ci)
    {cm : Fin k → Row R n} (hrows : ∀ c, chosen c → ∃ w, w < g ∧ Copy fin val (cm c) (data w))
    {ps : Nat → Kpp R R k n} (hm : ∀ p, p < np → (ps p).cltrs.means = cm)
    (hs : ∀ p l, p < np → l < procNrow g np p →
      SlotPre fin val big dF γ ζ chosen ci cm (data (off g np p + l)) ((ps p).slots l).dist) :
    ∃ (ps' : Nat → Kpp R R k n) (total : R) (V : Nat → R), kppPassDistBy (fun x => tree.eval x) dist data g np T todo sched ci ps = .ok (ps', total) ∧
      (∀ p, p < np → (ps' p).cltrs = (ps p).cltrs) ∧
      (∀ p l, p < np → l < procNrow g np p → ((ps' p).slots l).dist = V (off g np p + l)) ∧
      (∀ p l, p < np → l < procNrow g np p → Own fin val dist big chosen cm (data (off g np p + l)) ((ps p).slots l) →
        Own fin val dist big chosen cm (data (off g np p + l)) ((ps' p).slots l)) ∧
      (∀ r, r < g → SlotPost fin val dF γ ζ chosen cm (data r) (V r)) ∧ fin total ∧
      |val total - ∑ r ∈ Finset.range g, val (V r)| ≤
        ((1 + 2 ^ (-53 : Int)) ^ (W + (np - 1)) - 1) * ∑ r ∈ Finset.range g, val (V r) := by
  have hpass := fun p (hp : p < np) => kppPass_any (dist := dist) (data := procData data g np p) (ci := ci) (s := ps p)
    (hsp p hp) (hc p hp)
  obtain ⟨loc, e, hl⟩ := eachRank_ok (np := np) (d := fun p => (ps p, (0 : R)))
    (f := fun p => kppPass dist (procData data g np p) (T p) (todo p) (sched p) ci (ps p)) fun p hp => by
      obtain ⟨s', h, _⟩ := hpass p hp
      exact ⟨_, h⟩
  have hown : ∀ p l, p < np → l < procNrow g np p →
      Own fin val dist big chosen cm (data (off g np p + l)) ((ps p).slots l) →
      Own fin val dist big chosen cm (data (off g np p + l)) ((loc p).1.slots l) := by
    intro p l hp hll h
    obtain ⟨s', h', h1, h2⟩ := hpass p hp
    have := hl p hp
    rw [h', Except.ok.injEq] at this
    rw [← this]
    dsimp only
    rw [h2 l hll, hm p hp]
    obtain ⟨w, hw, hcp⟩ := hrows ci hci
    exact own_pass hci (fun j => (hcp j).1) h
  have hloc : ∀ p, p < np → (loc p).1.cltrs = (ps p).cltrs ∧
      (∀ l, l < procNrow g np p → SlotPost fin val dF γ ζ chosen cm (data (off g np p + l)) ((loc p).1.slots l).dist) ∧
      (loc p).2 = sumSeq ((List.range (T p)).map fun t => sumSeq ((todo p t).map fun r => ((loc p).1.slots r).dist)) := by
    intro p hp
    obtain ⟨s', h, h1, h2⟩ := hpass p hp
    have := hl p hp
    rw [h, Except.ok.injEq] at this
    rw [← this]
    refine ⟨h1, fun l hll => ?_, rfl⟩
    dsimp only
    rw [h2 l hll, hm p hp]
    exact slot_pass hI hS hci hrows (off_lt hp hll) (hs p l hp hll)
  set V : Nat → R := fun r => ((loc (Driver.ownerOf g np r)).1.slots (r - off g np (Driver.ownerOf g np r))).dist with hV
  have hVe : ∀ p l, p < np → l < procNrow g np p → ((loc p).1.slots l).dist = V (off g np p + l) := by
    intro p l hp hll
    rw [hV]
    dsimp only
    rw [Driver.ownerOf_off hnp hg hp hll, Nat.add_sub_cancel_left]
  have hVp : ∀ r, r < g → SlotPost fin val dF γ ζ chosen cm (data r) (V r) := by
    intro r hr
    obtain ⟨p, l, hp, hll, rfl⟩ := exists_off (g := g) hnp hr
    rw [← hVe p l hp hll]
    exact (hloc p hp).2.1 l hll
  have hVb : ∀ r, r < g → fin (V r) ∧ 0 ≤ val (V r) ∧ val (V r) ≤ 2 ^ (900 : Int) := fun r hr =>
    ⟨(hVp r hr).1, (hVp r hr).2.1.1, (hVp r hr).2.2⟩
  have hsumle := dist_sum_le hlt V hVb
  have hM : ∀ m (b : ℝ), m ≤ 2 ^ 34 → 0 ≤ b → b ≤ ∑ r ∈ Finset.range g, val (V r) →
      (1 + 2 ^ (-53 : Int)) ^ m * b ≤ maxDouble := by
    intro m b hm h0 hb
    have := mul_le_mul (pow2 (m := m) (hm.trans (by norm_num))) (hb.trans hsumle) h0 (p_pos _).le
    refine this.trans ?_
    rw [p_mul]
    exact (p_le (by norm_num)).trans p_le_max
  have htot : Near fin val (2 ^ (-53 : Int)) (W + (np - 1)) (tree.eval fun p => (loc p).2)
      (∑ r ∈ Finset.range g, val (V r)) (∑ r ∈ Finset.range g, val (V r)) := by
    refine ranks_near hI.rounds.toRounds hnp ht _ _ _ (fun p hp => ?_) ?_
    · have hpl := fun l (hl : l < procNrow g np p) => hVb _ (off_lt hp hl)
      have h := total_near hI (hsp p hp) (hL p hp) (fun l => ((loc p).1.slots l).dist) (fun l hl => by
        rw [hVe p l hp hl]; exact ⟨(hpl l hl).1, (hpl l hl).2.1⟩) (by
        refine hM _ _ ((hLT p hp).trans (by omega)) (Finset.sum_nonneg fun l hl => ?_) ?_
        · rw [hVe p l hp (Finset.mem_range.1 hl)]; exact (hpl l (Finset.mem_range.1 hl)).2.1
        · rw [← sum_procs (g := g) hnp]
          refine le_trans (le_of_eq (Finset.sum_congr rfl fun l hl => ?_))
            (Finset.single_le_sum (f := fun p => ∑ r ∈ Finset.range (procNrow g np p), val (V (off g np p + r)))
              (fun q hq => Finset.sum_nonneg fun r hr => ?_) (Finset.mem_range.2 hp))
          · rw [hVe p l hp (Finset.mem_range.1 hl)]
          · exact (hVb _ (off_lt (Finset.mem_range.1 hq) (Finset.mem_range.1 hr))).2.1)
      rw [← (hloc p hp).2.2] at h
      have hsumeq : ∑ r ∈ Finset.range (procNrow g np p), val (((loc p).1.slots r).dist) =
          ∑ r ∈ Finset.range (procNrow g np p), val (V (off g np p + r)) :=
        Finset.sum_congr rfl fun l hl => by rw [hVe p l hp (Finset.mem_range.1 hl)]
      rw [hsumeq] at h
      have h0 : 0 ≤ ∑ r ∈ Finset.range (procNrow g np p), val (V (off g np p + r)) :=
        Finset.sum_nonneg fun l hl => (hpl l (Finset.mem_range.1 hl)).2.1
      exact Near.mono (p_pos _).le (hLT p hp) ⟨h.1, (abs_of_nonneg h0).le, h.2⟩
    · exact hM _ _ hW (Finset.sum_nonneg fun r hr => (hVb r (Finset.mem_range.1 hr)).2.1) le_rfl
  exact ⟨fun p => (loc p).1, _, V, by unfold kppPassDistBy; rw [e], fun p hp => (hloc p hp).1, hVe, hown, hVp, htot.1,
    htot.err⟩

/-- The reduction of the means when rank `p` alone holds them. -/
theorem reduce_copy (hI : IeeeDouble fin val sqrt abs') {np p : Nat} (hp : p < np) {tree : Fin k → Fin n → SumTree}
    (ht : ∀ c j, (tree c j).ranks.Perm (List.range np)) {s : Nat → Kpp R R k n}
    (hf : ∀ c j, fin ((s p).cltrs.means c j))
    (ho : ∀ q, q < np → q ≠ p → ∀ c j, (s q).cltrs.means c j = 0) :
    ∃ cm, (∀ q, (reduceMeansBy (fun c j x => (tree c j).eval x) s q).cltrs.means = cm) ∧
      ∀ c, Copy fin val (cm c) ((s p).cltrs.means c) := by
  refine ⟨fun c j => (tree c j).eval fun q => (s q).cltrs.means c j, fun q => rfl, fun c j => ?_⟩
  obtain ⟨h1, h2⟩ := eval_single hI (fun q => (s q).cltrs.means c j) (p := p) (hf c j) (tree c j)
    ((ht c j).symm.nodup List.nodup_range) (fun q hq hne => ho q (List.mem_range.1 ((ht c j).mem_iff.1 hq)) hne c j)
  rw [if_pos ((ht c j).mem_iff.2 (List.mem_range.2 hp))] at h2
  exact ⟨h1, h2⟩

/-- The choice of a row by all ranks and the reduction after it. -/
theorem chooseDistBy_near (hI : IeeeDouble fin val sqrt abs') {zeroIt : Bool} {dist : Row R n → Row R n → R} {big : R}
    {data : Nat → Row R n} {g np nt r : Nat} {dF : (Fin n → ℝ) → (Fin n → ℝ) → ℝ} {γ ζ : ℝ}
    (hrf : ∀ j, fin (data r j)) (hnp : 0 < np) (hnt : 0 < nt) (hlt : g < 4294967296) (hr : r < g)
    {tree : Fin k → Fin n → SumTree} (ht : ∀ c j, (tree c j).ranks.Perm (List.range np))
    {chosen : Fin k → Prop} {c : Fin k} (hc : ¬ chosen c) {cm : Fin k → Row R n} (hcf : ∀ c j, fin (cm c j))
    {ps : Nat → Kpp R R k n} (hm : ∀ p, p < np → (ps p).cltrs.means = cm) {V : Nat → R}
    (hVe : ∀ p l, p < np → l < procNrow g np p → ((ps p).slots l).dist = V (off g np p + l))
    (hV : ∀ r, r < g → SlotPost fin val dF γ ζ chosen cm (data r) (V r)) :
    ∃ ps' cm', Distr.eachRank (fun p => chooseDist zeroIt data g np p nt r c (ps p)) np ps = .ok ps' ∧
      (∀ q, (reduceMeansBy (fun c j x => (tree c j).eval x) ps' q).cltrs.means = cm') ∧
      Copy fin val (cm' c) (data r) ∧ (∀ c', c' ≠ c → Copy fin val (cm' c') (cm c')) ∧
      ∀ p l, p < np → l < procNrow g np p →
        SlotPre fin val big dF γ ζ (fun c' => chosen c' ∨ c' = c) c cm' (data (off g np p + l)) ((ps' p).slots l).dist ∧
        (zeroIt = true → Own fin val dist big chosen cm (data (off g np p + l)) ((ps p).slots l) →
          Own fin val dist big (fun c' => chosen c' ∨ c' = c) cm' (data (off g np p + l)) ((ps' p).slots l)) := by
  obtain ⟨p, l, hp, hl, er, hloc, hrid, hother⟩ := owner_spec (g := g) hnp hr (by omega)
  have hpl : procNrow g np p ≤ g := Distr.procNrow_le hp
  have howner : chooseDist zeroIt data g np p nt r c (ps p) = .ok
      { cltrs := (ps p).cltrs.setMean (data r) c
        slots := Function.update (ps p).slots l
          { dist := if zeroIt then 0 else ((ps p).slots l).dist, assign := some c } } := by
    unfold chooseDist
    rw [if_pos hloc, hrid]
    simp only
    rw [thdRow_ok hnt hl (by omega)]
    have : Distr.procData data g np p l = data r := by rw [er]; rfl
    rw [this]
  have hoth : ∀ q, q < np → q ≠ p → chooseDist zeroIt data g np q nt r c (ps q)
      = .ok { ps q with cltrs := Clusters.empty } := by
    intro q hq hne
    unfold chooseDist
    rw [if_neg (by rw [hother q hq hne]; simp)]
  obtain ⟨m, e, hme⟩ := Distr.eachRank_ok
    (f := fun p => chooseDist zeroIt data g np p nt r c (ps p)) (np := np) (d := ps) (by
      intro q hq
      by_cases h : q = p
      · subst h; exact ⟨_, howner⟩
      · exact ⟨_, hoth q hq h⟩)
  have hmp : m p =
      { cltrs := (ps p).cltrs.setMean (data r) c
        slots := Function.update (ps p).slots l
          { dist := if zeroIt then 0 else ((ps p).slots l).dist, assign := some c } } := by
    have := hme p hp
    rw [howner, Except.ok.injEq] at this
    exact this.symm
  have hmq : ∀ q, q < np → q ≠ p → m q = { ps q with cltrs := Clusters.empty } := by
    intro q hq hne
    have := hme q hq
    rw [hoth q hq hne, Except.ok.injEq] at this
    exact this.symm
  have hmeans : ∀ c', (m p).cltrs.means c' = Function.update cm c (data r) c' := by
    intro c'
    rw [hmp]
    show Function.update (ps p).cltrs.means c (data r) c' = _
    rw [hm p hp]
  obtain ⟨cm', h1, h2⟩ := reduce_copy hI hp ht (s := m) (fun c' j => by
      rw [hmeans]
      by_cases h : c' = c
      · subst h; rw [Function.update_self]; exact hrf j
      · rw [Function.update_of_ne h]; exact hcf c' j) (fun q hq hne c' j => by rw [hmq q hq hne]; rfl)
  have hnew : Copy fin val (cm' c) (data r) := by
    have := h2 c
    rw [hmeans, Function.update_self] at this
    exact this
  have hold : ∀ c', c' ≠ c → Copy fin val (cm' c') (cm c') := by
    intro c' hne
    have := h2 c'
    rw [hmeans, Function.update_of_ne hne] at this
    exact this
  refine ⟨m, cm', e, h1, hnew, hold, fun q l' hq hl' => ?_⟩
  have hbase : ∀ v : R, v = V (off g np q + l') →
      SlotPre fin val big dF γ ζ (fun c' => chosen c' ∨ c' = c) c cm' (data (off g np q + l')) v := by
    rintro _ rfl
    obtain ⟨g1, g2, g3⟩ := hV _ (off_lt hq hl')
    refine ⟨g1, Or.inr (Or.inr ⟨g2.congr (fun c' => ⟨fun h => ⟨Or.inl h, fun h' => hc (h' ▸ h)⟩, fun h => h.1.resolve_right h.2⟩) fun c' h => ?_, g3⟩)⟩
    funext j
    exact ((hold c' fun h' => hc (h' ▸ h)) j).2.symm
  have hkeep : ∀ x m, Own fin val dist big chosen cm x m → Own fin val dist big (fun c' => chosen c' ∨ c' = c) cm' x m := by
    rintro x m (h | ⟨a, ha, hch, h⟩)
    · exact Or.inl h
    · have hac := hold a fun h' => hc (h' ▸ hch)
      refine Or.inr ⟨a, ha, Or.inl hch, ?_⟩
      rcases h with ⟨y, hy, hd⟩ | ⟨h0, hv⟩
      · exact Or.inl ⟨y, fun j => ⟨(hy j).1, (hy j).2.trans (hac j).2.symm⟩, hd⟩
      · exact Or.inr ⟨h0, fun j => (hv j).trans (hac j).2.symm⟩
  by_cases hqp : q = p
  · subst hqp
    rw [hmp]
    dsimp only
    by_cases hll : l' = l
    · subst hll
      rw [Function.update_self]
      dsimp only
      cases zeroIt with
      | false => exact ⟨hbase _ (hVe q l' hq hl'), fun h => by cases h⟩
      | true =>
        rw [if_pos rfl, ← er]
        exact ⟨⟨hI.zero.1, Or.inr (Or.inl ⟨hI.zero.2, fun j => (hnew j).2.symm⟩)⟩, fun _ _ =>
          Or.inr ⟨c, rfl, Or.inr rfl, Or.inr ⟨rfl, fun j => (hnew j).2.symm⟩⟩⟩
    · rw [Function.update_of_ne hll]
      exact ⟨hbase _ (hVe q l' hq hl'), fun _ => hkeep _ _⟩
  · rw [hmq q hq hqp]
    exact ⟨hbase _ (hVe q l' hq hl'), fun _ => hkeep _ _⟩

theorem kppLoopDistBy_near [DecidableLT R] [DecidableLE R] (hI : IeeeDouble fin val sqrt abs') {zeroIt : Bool}
    {dist : Row R n → Row R n → R} {big : R}
    {data : Nat → Row R n} {g np nt W : Nat} {dF : (Fin n → ℝ) → (Fin n → ℝ) → ℝ} {γ ζ : ℝ}
    (hS : SeedCopies fin val dist big data g dF γ ζ) (hnp : 0 < np) (hg : np ≤ g) (hnt : 0 < nt) (hlt : g < 4294967296)
    {T : Nat → Nat} {todo : Nat → Nat → List Nat} (hsp : ∀ p, p < np → Split (procNrow g np p) (T p) (todo p))
    {L : Nat → Nat} (hL : ∀ p, p < np → ∀ t, (todo p t).length ≤ L p) (hLT : ∀ p, p < np → L p + T p ≤ W)
    (hW : W + np ≤ 2 ^ 34) {sched : Nat → Nat → List Nat}
    (hc : ∀ i p, p < np → Complete (T p) (todo p) (sched i p))
    {init : Nat → Fin k → Fin n → SumTree} (hti : ∀ i c j, (init i c j).ranks.Perm (List.range np))
    {total : Nat → SumTree} (htt : ∀ i, (total i).ranks.Perm (List.range np))
    {u : Nat → R} (hu : ∀ i, fin (u i) ∧ 0 ≤ val (u i) ∧ val (u i) ≤ 1) (rest : List (Fin k)) :
    ∀ ci ps cm, rest.Nodup → ci ∉ rest → (∀ c j, fin (cm c j)) →
    (∀ c, c ∉ rest → ∃ w, w < g ∧ Copy fin val (cm c) (data w)) →
    (∀ p, p < np → (ps p).cltrs.means = cm) →
    (∀ p l, p < np → l < procNrow g np p →
      SlotPre fin val big dF γ ζ (fun c => c ∉ rest) ci cm (data (off g np p + l)) ((ps p).slots l).dist) →
    (zeroIt = true → ∀ p l, p < np → l < procNrow g np p →
      Own fin val dist big (fun c => c ∉ rest) cm (data (off g np p + l)) ((ps p).slots l)) →
    ∃ ps' cm', kppLoopDistBy (fun i c j x => (init i c j).eval x) (fun i x => (total i).eval x) zeroIt dist data g np nt
        T todo sched u rest ci ps = .ok ps' ∧
      (∀ p, p < np → (ps' p).cltrs.means = cm') ∧ (∀ c, ∃ w, w < g ∧ Copy fin val (cm' c) (data w)) ∧
      (∀ c, c ∉ rest → Copy fin val (cm' c) (cm c)) ∧
      (zeroIt = true → ∀ p l, p < np → l < procNrow g np p →
        Own fin val dist big (fun _ => True) cm' (data (off g np p + l)) ((ps' p).slots l)) ∧
      ∀ pre c post, rest = pre ++ c :: post → ∃ r d, Copy fin val (cm' c) (data r) ∧
        NearMinTo dF γ ζ (fun r j => val (data r j)) g (fun c' => c' ∉ c :: post) (fun c j => val (cm' c j)) d ∧
        NearSampled (drawErr (W + (np - 1)) 0 g) (2 ^ (-1073 : Int)) d g (val (u ((ci :: pre).getLast (by simp)))) r := by
  induction rest with
  | nil =>
    intro ci ps cm _ hci hcf hrows hm hs ho
    obtain ⟨ps', tot, V, e, h1, h2, hw, h3, h4, h5⟩ := kppPassDistBy_near hI hS hnp hg hlt hsp hL hLT hW (hc ci) (htt ci)
      (chosen := fun c => c ∉ []) hci hrows hm hs
    refine ⟨ps', cm, by unfold kppLoopDistBy; rw [e], fun p hp => by rw [h1 p hp, hm p hp], fun c => hrows c (by simp),
      fun c _ j => ⟨hcf c j, rfl⟩, fun hz p l hp hl => ?_, ?_⟩
    · have := hw p l hp hl (ho hz p l hp hl)
      simpa using this
    intro pre c post h
    simp at h
  | cons c rest ih =>
    intro ci ps cm hnd hci hcf hrows hm hs ho
    rw [List.nodup_cons] at hnd
    obtain ⟨ps1, tot, V, e1, h1, h2, hw, h3, h4, h5⟩ := kppPassDistBy_near hI hS hnp hg hlt hsp hL hLT hW (hc ci) (htt ci)
      (chosen := fun c' => c' ∉ c :: rest) hci hrows hm hs
    have hd : ∀ r, r < g → fin (V r) ∧ 0 ≤ val (V r) ∧ val (V r) ≤ 2 ^ (900 : Int) := fun r hr =>
      ⟨(h3 r hr).1, (h3 r hr).2.1.1, (h3 r hr).2.2⟩
    obtain ⟨r, y, es, hy, hsam⟩ := choice_near_of hI (m := W + (np - 1)) (by omega) (by omega) hlt V hd h4 h5 (hu ci).1
      (hu ci).2.1 (hu ci).2.2
    have hr : r < g := hsam.1
    have es' : select (gatherDist g np fun p l => ((ps1 p).slots l).dist) (List.range g)
        (threshold tot (u ci)) = (some r, y) := by
      rw [← es]
      apply select_congr
      intro i hi
      exact gatherDist_eq (f := V) hnp hg h2 i (List.mem_range.1 hi)
    obtain ⟨ps2, cm2, e2, k1, k2, k3, k4⟩ := chooseDistBy_near (zeroIt := zeroIt) (dist := dist) (big := big) (nt := nt) hI (hS.rowFin r hr) hnp hnt hlt hr (hti c)
      (chosen := fun c' => c' ∉ c :: rest) (c := c) (by simp) hcf (fun p hp => by rw [h1 p hp, hm p hp]) h2 h3
    have hch : ∀ c', (c' ∉ c :: rest ∨ c' = c) ↔ c' ∉ rest := by
      intro c'
      simp only [List.mem_cons, not_or]
      constructor
      · rintro (h | rfl)
        · exact h.2
        · exact hnd.1
      · intro h
        by_cases e : c' = c
        · exact Or.inr e
        · exact Or.inl ⟨e, h⟩
    obtain ⟨ps3, cm3, e3, g1, g2, g3, go, g4⟩ := ih c (reduceMeansBy (fun i j x => (init c i j).eval x) ps2) cm2 hnd.2 hnd.1
      (fun c' j => by
        by_cases h : c' = c
        · subst h; exact (k2 j).1
        · exact (k3 c' h j).1)
      (fun c' hc' => by
        by_cases h : c' = c
        · subst h; exact ⟨r, hr, k2⟩
        · obtain ⟨w, hw, hcp⟩ := hrows c' (by simp [h, hc'])
          exact ⟨w, hw, fun j => ⟨(k3 c' h j).1, (k3 c' h j).2.trans (hcp j).2⟩⟩)
      (fun p _ => k1 p)
      (fun p l hp hl => by
        have := (k4 p l hp hl).1
        simp only [hch] at this
        exact this)
      (fun hz p l hp hl => by
        have := (k4 p l hp hl).2 hz (hw p l hp hl (ho hz p l hp hl))
        simp only [hch] at this
        exact this)
    have hcopy : ∀ c', c' ∉ c :: rest → Copy fin val (cm3 c') (cm c') := by
      intro c' hc' j
      simp only [List.mem_cons, not_or] at hc'
      exact ⟨(g3 c' hc'.2 j).1, (g3 c' hc'.2 j).2.trans (k3 c' hc'.1 j).2⟩
    refine ⟨ps3, cm3, ?_, g1, g2, hcopy, go, ?_⟩
    · unfold kppLoopDistBy
      rw [e1]
      dsimp only
      rw [es']
      dsimp only
      rw [e2]
      dsimp only
      rw [if_pos hy]
      exact e3
    · intro pre c1 post he
      cases pre with
      | cons a pre =>
        simp only [List.cons_append, List.cons.injEq] at he
        obtain ⟨rfl, he⟩ := he
        obtain ⟨r1, d1, q1, q2, q3⟩ := g4 pre c1 post he
        refine ⟨r1, d1, q1, q2, ?_⟩
        rw [List.getLast_cons (by simp)]
        exact q3
      | nil =>
        simp only [List.nil_append, List.cons.injEq] at he
        obtain ⟨rfl, rfl⟩ := he
        refine ⟨r, fun q => val (V q), fun j => ⟨(g3 c hnd.1 j).1, (g3 c hnd.1 j).2.trans (k2 j).2⟩, ?_, hsam⟩
        intro q hq
        exact (h3 q hq).2.1.congr (fun _ => Iff.rfl) fun c' hc' => funext fun j => (hcopy c' hc' j).2.symm

/-- The position of centre `c` in the loop over the centres after the first one. -/
theorem after_first {k : Nat} (c : Fin (k + 1)) (h : 0 < c.val) :
    ∃ pre post, (List.finRange k).map Fin.succ = pre ++ c :: post ∧
      (((0 : Fin (k + 1)) :: pre).getLast (by simp)).val = c.val - 1 ∧ ∀ c', c' ∉ c :: post ↔ c' < c := by
  have hfr : List.finRange (k + 1) = 0 :: (List.finRange k).map Fin.succ := List.finRange_succ
  obtain ⟨i, hi⟩ : ∃ i, c.val = i + 1 := ⟨c.val - 1, by omega⟩
  have hik : i < k := by have := c.isLt; omega
  refine ⟨((List.finRange k).map Fin.succ).take i, ((List.finRange k).map Fin.succ).drop (i + 1), ?_, ?_, fun c' => ?_⟩
  · conv_lhs => rw [← List.take_append_drop i ((List.finRange k).map Fin.succ)]
    rw [List.drop_eq_getElem_cons (by simpa using hik)]
    congr 2
    apply Fin.ext
    simp [hi]
  · rw [hi, Nat.add_sub_cancel]
    have hcons : (0 : Fin (k + 1)) :: ((List.finRange k).map Fin.succ).take i
        = (List.finRange (k + 1)).take (i + 1) := by rw [hfr]; rfl
    rw [List.getLast_congr (by simp) (by simp) hcons, List.getLast_eq_getElem]
    simp
    omega
  · have hm : c :: ((List.finRange k).map Fin.succ).drop (i + 1)
        = (List.finRange (k + 1)).drop (i + 1) := by
      rw [List.drop_eq_getElem_cons (l := List.finRange (k + 1)) (i := i + 1)
        (by rw [List.length_finRange]; omega)]
      congr 1
      · apply Fin.ext; simp [hi]
      · rw [hfr]; rfl
    rw [hm, List.mem_iff_getElem]
    constructor
    · intro h
      by_contra hle
      refine h ⟨c'.val - (i + 1), ?_, ?_⟩
      · have := c'.isLt
        have : c.val ≤ c'.val := not_lt.1 hle
        simp; omega
      · have : c.val ≤ c'.val := not_lt.1 hle
        apply Fin.ext
        simp; omega
    · rintro hlt' ⟨j, hj, e⟩
      have : c'.val = i + 1 + j := by rw [← e]; simp
      have : c'.val < c.val := hlt'
      omega

/-- **k-means++ of a distributed job on doubles.** -/
theorem kppDistBy_near [DecidableLT R] [DecidableLE R] (hI : IeeeDouble fin val sqrt abs') {zeroIt : Bool}
    {dist : Row R n → Row R n → R} {big : R}
    {data : Nat → Row R n} {g np nt W : Nat} {dF : (Fin n → ℝ) → (Fin n → ℝ) → ℝ} {γ ζ : ℝ}
    (hS : SeedCopies fin val dist big data g dF γ ζ) (hk : 0 < k) (hnp : 0 < np) (hg : np ≤ g) (hnt : 0 < nt)
    (hlt : g < 4294967296)
    {T : Nat → Nat} {todo : Nat → Nat → List Nat} (hsp : ∀ p, p < np → Split (procNrow g np p) (T p) (todo p))
    {L : Nat → Nat} (hL : ∀ p, p < np → ∀ t, (todo p t).length ≤ L p) (hLT : ∀ p, p < np → L p + T p ≤ W)
    (hW : W + np ≤ 2 ^ 34) {sched : Nat → Nat → List Nat}
    (hc : ∀ i p, p < np → Complete (T p) (todo p) (sched i p))
    {init : Nat → Fin k → Fin n → SumTree} (hti : ∀ i c j, (init i c j).ranks.Perm (List.range np))
    {total : Nat → SumTree} (htt : ∀ i, (total i).ranks.Perm (List.range np))
    {u : Nat → R} (hu : ∀ i, fin (u i) ∧ 0 ≤ val (u i) ∧ val (u i) ≤ 1) {first : Nat} (hf : first < g) :
    ∃ ps cm, kppDistBy (fun i c j x => (init i c j).eval x) (fun i x => (total i).eval x) zeroIt dist data g np nt
        T todo sched first u (fun _ => ⟨Clusters.empty, fun _ => ⟨big, none⟩⟩) = .ok ps ∧
      (∀ p, p < np → (ps p).cltrs.means = cm) ∧ (∀ c, ∃ w, w < g ∧ Copy fin val (cm c) (data w)) ∧
      (zeroIt = true → ∀ p l, p < np → l < procNrow g np p →
        Own fin val dist big (fun _ => True) cm (data (off g np p + l)) ((ps p).slots l)) ∧
      ∀ c : Fin k, (c.val = 0 → Copy fin val (cm c) (data first)) ∧
        (0 < c.val → ∃ r d, Copy fin val (cm c) (data r) ∧
          NearMinTo dF γ ζ (fun r j => val (data r j)) g (fun c' => c' < c) (fun c j => val (cm c j)) d ∧
          NearSampled (drawErr (W + (np - 1)) 0 g) (2 ^ (-1073 : Int)) d g (val (u (c.val - 1))) r) := by
  obtain ⟨k, rfl⟩ : ∃ m, k = m + 1 := ⟨k - 1, by omega⟩
  have hfr : List.finRange (k + 1) = 0 :: (List.finRange k).map Fin.succ := List.finRange_succ
  have hnd := List.nodup_finRange (k + 1)
  rw [hfr, List.nodup_cons] at hnd
  have hall : ∀ c : Fin (k + 1), c ∉ (List.finRange k).map Fin.succ → c = 0 := by
    intro c hc
    have : c ∈ List.finRange (k + 1) := List.mem_finRange c
    rw [hfr] at this
    exact (List.mem_cons.1 this).resolve_right hc
  -- the first centre
  obtain ⟨p, l, hp, hl, er, hloc, hrid, hother⟩ := owner_spec (g := g) hnp hf (by omega)
  have hpl : procNrow g np p ≤ g := Distr.procNrow_le hp
  set s0 : Kpp R R (k + 1) n := ⟨Clusters.empty, fun _ => ⟨big, none⟩⟩ with hs0
  have howner : firstDist data g np p nt first (0 : Fin (k + 1)) s0 = .ok
      { cltrs := s0.cltrs.setMean (data first) 0, slots := Function.update s0.slots l ⟨0, some 0⟩ } := by
    unfold firstDist
    rw [if_pos hloc, hrid]
    simp only
    rw [thdRow_ok hnt hl (by omega)]
    have : Distr.procData data g np p l = data first := by rw [er]; rfl
    rw [this]
  have hoth : ∀ q, q < np → q ≠ p → firstDist data g np q nt first (0 : Fin (k + 1)) s0 = .ok s0 := by
    intro q hq hne
    unfold firstDist
    rw [if_neg (by rw [hother q hq hne]; simp)]
  obtain ⟨m, e, hme⟩ := Distr.eachRank_ok
    (f := fun p => firstDist data g np p nt first (0 : Fin (k + 1)) s0) (np := np) (d := fun _ => s0) (by
      intro q hq
      by_cases h : q = p
      · subst h; exact ⟨_, howner⟩
      · exact ⟨_, hoth q hq h⟩)
  have hmp : m p =
      { cltrs := s0.cltrs.setMean (data first) 0, slots := Function.update s0.slots l ⟨0, some 0⟩ } := by
    have := hme p hp
    rw [howner, Except.ok.injEq] at this
    exact this.symm
  have hmq : ∀ q, q < np → q ≠ p → m q = s0 := by
    intro q hq hne
    have := hme q hq
    rw [hoth q hq hne, Except.ok.injEq] at this
    exact this.symm
  have hmeans : ∀ c', (m p).cltrs.means c' = Function.update (fun _ _ => (0 : R)) 0 (data first) c' := by
    intro c'
    rw [hmp]
    rfl
  obtain ⟨cm, h1, h2⟩ := reduce_copy hI hp (hti 0) (s := m) (fun c' j => by
      rw [hmeans]
      by_cases h : c' = 0
      · subst h; rw [Function.update_self]; exact hS.rowFin first hf j
      · rw [Function.update_of_ne h]; exact hI.zero.1) (fun q hq hne c' j => by rw [hmq q hq hne]; rfl)
  have hnew : Copy fin val (cm 0) (data first) := by
    have := h2 0
    rw [hmeans, Function.update_self] at this
    exact this
  obtain ⟨ps, cm', e', g1, g2, g3, go, g4⟩ := kppLoopDistBy_near (zeroIt := zeroIt) hI hS hnp hg hnt hlt hsp hL hLT hW hc hti
    htt hu ((List.finRange k).map Fin.succ) 0 (reduceMeansBy (fun c j x => (init 0 c j).eval x) m) cm hnd.2 hnd.1
    (fun c j => (h2 c j).1) (fun c hc => ⟨first, hf, by rw [hall c hc]; exact hnew⟩) (fun q _ => h1 q)
    (fun q l' hq hl' => by
      show SlotPre _ _ _ _ _ _ _ _ _ _ ((m q).slots l').dist
      have hbig : SlotPre fin val big dF γ ζ (fun c => c ∉ (List.finRange k).map Fin.succ) 0 cm
          (data (off g np q + l')) big := ⟨hS.bigFin, Or.inl ⟨hall, rfl⟩⟩
      by_cases hqp : q = p
      · subst hqp
        rw [hmp]
        dsimp only
        by_cases hll : l' = l
        · subst hll
          rw [Function.update_self, ← er]
          exact ⟨hI.zero.1, Or.inr (Or.inl ⟨hI.zero.2, fun j => (hnew j).2.symm⟩)⟩
        · rw [Function.update_of_ne hll]
          exact hbig
      · rw [hmq q hq hqp]
        exact hbig)
    (fun _ q l' hq hl' => by
      show Own _ _ _ _ _ _ _ ((m q).slots l')
      by_cases hqp : q = p
      · subst hqp
        rw [hmp]
        dsimp only
        by_cases hll : l' = l
        · subst hll
          rw [Function.update_self, ← er]
          exact Or.inr ⟨0, rfl, hnd.1, Or.inr ⟨rfl, fun j => (hnew j).2.symm⟩⟩
        · rw [Function.update_of_ne hll]
          exact Or.inl rfl
      · rw [hmq q hq hqp]
        exact Or.inl rfl)
  refine ⟨ps, cm', ?_, g1, g2, go, fun c => ⟨fun h => ?_, fun h => ?_⟩⟩
  · unfold kppDistBy
    rw [hfr]
    dsimp only
    rw [e]
    exact e'
  · have : c = 0 := Fin.ext h
    subst this
    exact fun j => ⟨(g3 0 hnd.1 j).1, (g3 0 hnd.1 j).2.trans (hnew j).2⟩
  · obtain ⟨pre, post, a1, a2, a3⟩ := after_first c h
    obtain ⟨r, d, b1, b2, b3⟩ := g4 pre c post a1
    rw [a2] at b3
    refine ⟨r, d, b1, ?_, b3⟩
    intro q hq
    obtain ⟨w0, ⟨c', w1, w2⟩, w3⟩ := b2 q hq
    exact ⟨w0, ⟨c', (a3 c').1 w1, w2⟩, fun c' hc' => w3 c' ((a3 c').2 hc')⟩

end Knor.Init
