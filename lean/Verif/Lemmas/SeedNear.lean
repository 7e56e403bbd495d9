import Verif.Lemmas.InitNear
import Verif.Lemmas.Omp

/-!
# The k-means++ loop on doubles

The invariants of Lemmas/Init.lean hold for the values of the stored distances.
-/

namespace Knor.Init

open Knor Knor.Spec Knor.Par

variable {R S : Type _} {k n : Nat} [Zero R] [Add R] [Sub R] [Mul R] [Div R] [IntCast R] [NatCast R] [LT R] [LE R]
  {fin : R → Prop} {val : R → ℝ} {sqrt abs' : R → R}

/-- What k-means++ on doubles needs of the computed distances between rows. -/
structure SeedNear (fin : R → Prop) (val : R → ℝ) (dist : Row R n → Row R n → R) (big : R) (data : Nat → Row R n)
    (N : Nat) (dF : (Fin n → ℝ) → (Fin n → ℝ) → ℝ) (γ ζ : ℝ) : Prop where
  bigFin : fin big
  distFin : ∀ q r, q < N → r < N → fin (dist (data q) (data r))
  pos : ∀ q r, q < N → r < N → 0 ≤ val (dist (data q) (data r))
  le : ∀ q r, q < N → r < N → val (dist (data q) (data r)) ≤ 2 ^ (900 : Int)
  lt : ∀ q r, q < N → r < N → val (dist (data q) (data r)) < val big
  zero : ∀ q r, q < N → r < N → (∀ j, val (data q j) = val (data r j)) → val (dist (data q) (data r)) = 0
  near : ∀ q r, q < N → r < N →
    |val (dist (data q) (data r)) - dF (fun j => val (data q j)) fun j => val (data r j)| ≤
      γ * dF (fun j => val (data q j)) (fun j => val (data r j)) + ζ

/-- The state with the values of the distances. -/
def Kpp.map (val : R → ℝ) (s : Kpp R R k n) : Kpp R ℝ k n where
  cltrs := s.cltrs
  slots := fun r => ⟨val (s.slots r).dist, (s.slots r).assign⟩

omit [Zero R] [Add R] [Sub R] [Mul R] [Div R] [IntCast R] [NatCast R] [LT R] [LE R] in
theorem Kpp.map_choose (s : Kpp R R k n) (x : Row R n) (r : Nat) (c : Fin k) :
    (s.choose x r c).map val = (s.map val).choose x r c := by
  unfold Kpp.map Kpp.choose
  congr 1
  funext q
  dsimp only
  by_cases h : q = r
  · subst h; rw [Function.update_self, Function.update_self]
  · rw [Function.update_of_ne h, Function.update_of_ne h]

theorem newSlot_val [DecidableLT R] (hI : IeeeDouble fin val sqrt abs') {d : R} {ci : Fin k} {m : KppSlot R k}
    (hd : fin d) (hm : fin m.dist) :
    fin (newSlot d ci m).dist ∧
    (⟨val (newSlot d ci m).dist, (newSlot d ci m).assign⟩ : KppSlot ℝ k) = newSlot (val d) ci ⟨val m.dist, m.assign⟩ := by
  unfold newSlot
  by_cases h : d < m.dist
  · rw [if_pos h, if_pos ((hI.lt _ _ hd hm).1 h)]
    exact ⟨hd, rfl⟩
  · rw [if_neg h, if_neg (fun h' => h ((hI.lt _ _ hd hm).2 h'))]
    exact ⟨hm, rfl⟩

/-- The loop of k-means++ with an abstract access to the rows and any distribution of the rows in every pass: the loops
of the pthread version (Model/Init.lean, libman/kmeans_coordinator.cpp:112-132) and of the OpenMP version (Model/Omp.lean,
libauto/kmeans.cpp:144-180) are instances (`kppLoop_eq_gen`, `ompLoop_eq_gen`). -/
def kppLoopGen [DecidableLT R] [DecidableLE R] (fetch : Nat → Res (Row R n)) (dist : Row R n → Row R n → R)
    (data : Nat → Row R n) (nrow T : Nat) (todo : Nat → Nat → List Nat) (sched : Nat → List Nat) (u : Nat → R) :
    List (Fin k) → Fin k → Kpp R R k n → Res (Kpp R R k n)
  | [], ci, s =>
    match kppPass dist data T (todo ci) (sched ci) ci s with
    | .error e => .error e
    | .ok (s', _) => .ok s'
  | c :: rest, ci, s =>
    match kppPass dist data T (todo ci) (sched ci) ci s with
    | .error e => .error e
    | .ok (s', total) =>
      let sel := select (fun r => (s'.slots r).dist) (List.range nrow) (threshold total (u ci))
      match sel.1 with
      | none =>
        if sel.2 ≤ 0 then kppLoopGen fetch dist data nrow T todo sched u rest c s' else .error .assertFail
      | some r =>
        match fetch r with
        | .error e => .error e
        | .ok x =>
          if sel.2 ≤ 0 then kppLoopGen fetch dist data nrow T todo sched u rest c (s'.choose x r c)
          else .error .assertFail

omit [IntCast R] in
theorem kppLoop_eq_gen [DecidableLT R] [DecidableLE R] (dist : Row R n → Row R n → R) (data : Nat → Row R n)
    (N nt T : Nat) (todo : Nat → List Nat) (sched : Nat → List Nat) (u : Nat → R) (rest : List (Fin k)) :
    ∀ ci s, kppLoop dist data N nt T todo sched u rest ci s =
      kppLoopGen (thdRow data N nt) dist data N T (fun _ => todo) sched u rest ci s := by
  induction rest with
  | nil =>
    intro ci s
    unfold kppLoop kppLoopGen
    cases kppPass dist data T todo (sched ci) ci s <;> rfl
  | cons c rest ih =>
    intro ci s
    unfold kppLoop kppLoopGen
    simp only [ih]
    cases kppPass dist data T todo (sched ci) ci s with
    | error e => rfl
    | ok p =>
      dsimp only
      cases (select (fun r => (p.1.slots r).dist) (List.range N) (threshold p.2 (u ci))).1 with
      | none => rfl
      | some r => dsimp only; cases thdRow data N nt r <;> rfl

omit [IntCast R] in
theorem ompLoop_eq_gen [DecidableLT R] [DecidableLE R] (dist : Row R n → Row R n → R) (data : Nat → Row R n)
    (N T : Nat) (owner : Nat → Nat → Nat) (sched : Nat → List Nat) (u : Nat → R) (rest : List (Fin k)) :
    ∀ ci s, Omp.kppLoop dist data N T owner sched u rest ci s =
      kppLoopGen (fun r => .ok (data r)) dist data N T (fun i => Omp.rows N T (owner i)) sched u rest ci s := by
  induction rest with
  | nil =>
    intro ci s
    unfold Omp.kppLoop kppLoopGen
    cases kppPass dist data T (Omp.rows N T (owner ci)) (sched ci) ci s <;> rfl
  | cons c rest ih =>
    intro ci s
    unfold Omp.kppLoop kppLoopGen
    simp only [ih]
    cases kppPass dist data T (Omp.rows N T (owner ci)) (sched ci) ci s with
    | error e => rfl
    | ok p =>
      dsimp only
      cases (select (fun r => (p.1.slots r).dist) (List.range N) (threshold p.2 (u ci))).1 <;> rfl

theorem kppLoopGen_near [DecidableLT R] [DecidableLE R] (hI : IeeeDouble fin val sqrt abs')
    {dist : Row R n → Row R n → R} {big : R} {data : Nat → Row R n} {N T L : Nat} {todo : Nat → Nat → List Nat}
    {sched : Nat → List Nat} {u : Nat → R} {dF : (Fin n → ℝ) → (Fin n → ℝ) → ℝ} {γ ζ : ℝ}
    (hS : SeedNear fin val dist big data N dF γ ζ)
    {fetch : Nat → Res (Row R n)} (hfe : ∀ r, r < N → fetch r = .ok (data r)) (hn : 0 < N) (hlt : N < 4294967296)
    (hsp : ∀ i, Split N T (todo i)) (hL : ∀ i t, (todo i t).length ≤ L) (hLT : L + T ≤ 2 ^ 34)
    (hc : ∀ i, Complete T (todo i) (sched i)) (hu : ∀ i, fin (u i) ∧ 0 ≤ val (u i) ∧ val (u i) ≤ 1)
    (rest : List (Fin k)) :
    ∀ ci s, rest.Nodup → ci ∉ rest → (∀ r, r < N → fin (s.slots r).dist) →
    Pre (fun x y => val (dist x y)) data N rest ci (s.map val) →
    ∃ s', kppLoopGen fetch dist data N T todo sched u rest ci s = .ok s' ∧
      ((∀ r, r < N → fin (s'.slots r).dist) ∧ Post (fun x y => val (dist x y)) data N [] (s'.map val)) ∧
      (∀ c, ∃ r, r < N ∧ s'.cltrs.means c = data r) ∧
      (∀ c, c ∉ rest → s'.cltrs.means c = s.cltrs.means c) ∧
      ∀ pre c post, rest = pre ++ c :: post → ∃ r d, s'.cltrs.means c = data r ∧
        NearMinTo dF γ ζ (fun r j => val (data r j)) N (fun c' => c' ∉ c :: post)
          (fun c j => val (s'.cltrs.means c j)) d ∧
        NearSampled (drawErr L T N) (2 ^ (-1073 : Int)) d N (val (u ((ci :: pre).getLast (by simp)))) r := by
  have hpos : ∀ q r, q < N → r < N → 0 ≤ (fun x y => val (dist x y)) (data q) (data r) := hS.pos
  have hself : ∀ r, r < N → (fun x y => val (dist x y)) (data r) (data r) = 0 :=
    fun r hr => hS.zero r r hr hr fun _ => rfl
  -- what one pass does
  have pass : ∀ (rest : List (Fin k)) (ci : Fin k) (s s' : Kpp R R k n), ci ∉ rest →
      (∀ r, r < N → fin (s.slots r).dist) → Pre (fun x y => val (dist x y)) data N rest ci (s.map val) →
      s'.cltrs = s.cltrs →
      (∀ r, r < N → s'.slots r = newSlot (dist (data r) (s.cltrs.means ci)) ci (s.slots r)) →
      (∀ r, r < N → fin (s'.slots r).dist) ∧ Post (fun x y => val (dist x y)) data N rest (s'.map val) := by
    intro rest ci s s' hci hf hpre h1 h2
    have hfd : ∀ r, r < N → fin (dist (data r) (s.cltrs.means ci)) := by
      intro r hr
      obtain ⟨w, hw, ew⟩ := hpre.rows ci hci
      rw [show s.cltrs.means ci = data w from ew]
      exact hS.distFin r w hr hw
    refine ⟨fun r hr => ?_, pass_post hci hpre h1 fun r hr => ?_⟩
    · rw [h2 r hr]; exact (newSlot_val hI (hfd r hr) (hf r hr)).1
    · have := (newSlot_val (ci := ci) hI (hfd r hr) (hf r hr)).2
      rw [← h2 r hr] at this
      exact this
  induction rest with
  | nil =>
    intro ci s _ hci hf hpre
    obtain ⟨s', e, h1, h2⟩ := kppPass_any (dist := dist) (data := data) (ci := ci) (s := s) (hsp ci) (hc ci)
    obtain ⟨hff, hpost⟩ := pass [] ci s s' hci hf hpre h1 h2
    refine ⟨s', by unfold kppLoopGen; rw [e], ⟨hff, hpost⟩, ?_, ?_, ?_⟩
    · intro c; exact hpost.rows c (by simp)
    · intro c _; rw [h1]
    · intro pre c post h; simp at h
  | cons c rest ih =>
    intro ci s hnd hci hf hpre
    rw [List.nodup_cons] at hnd
    obtain ⟨s', e, h1, h2⟩ := kppPass_any (dist := dist) (data := data) (ci := ci) (s := s) (hsp ci) (hc ci)
    obtain ⟨hf', hpost⟩ := pass (c :: rest) ci s s' hci hf hpre h1 h2
    have hval : ∀ r, r < N → ∃ c' w, c' ∉ c :: rest ∧ w < N ∧ s'.cltrs.means c' = data w ∧
        val (s'.slots r).dist = val (dist (data r) (data w)) := by
      intro r hr
      obtain ⟨c', hc', _, e⟩ := hpost.val r hr
      obtain ⟨w, hw, ew⟩ := hpost.rows c' hc'
      refine ⟨c', w, hc', hw, ew, ?_⟩
      rw [← ew]; exact e
    have hd : ∀ r, r < N → fin (s'.slots r).dist ∧ 0 ≤ val (s'.slots r).dist ∧
        val (s'.slots r).dist ≤ 2 ^ (900 : Int) := by
      intro r hr
      obtain ⟨_, w, _, hw, _, e⟩ := hval r hr
      rw [e]
      exact ⟨hf' r hr, hS.pos r w hr hw, hS.le r w hr hw⟩
    obtain ⟨r, y, es, hy, hsam⟩ := choice_near hI (hsp ci) (hL ci) hLT hn hlt (fun r => (s'.slots r).dist) hd (hu ci).1 (hu ci).2.1
      (hu ci).2.2
    have hr : r < N := hsam.1
    have hfc : ∀ q, q < N → fin ((s'.choose (data r) r c).slots q).dist := by
      intro q hq
      unfold Kpp.choose
      dsimp only
      by_cases h : q = r
      · subst h; rw [Function.update_self]; exact hf' q hq
      · rw [Function.update_of_ne h]; exact hf' q hq
    obtain ⟨s2, e2, g0, g1, g2, g3⟩ := ih c (s'.choose (data r) r c) hnd.2 hnd.1 hfc
      (by rw [Kpp.map_choose]; exact choose_pre hpos hself hnd.1 hr hpost)
    refine ⟨s2, ?_, g0, g1, ?_, ?_⟩
    · unfold kppLoopGen
      rw [e]
      dsimp only
      rw [es]
      dsimp only
      rw [hfe r hr]
      dsimp only
      rw [if_pos hy]
      exact e2
    · intro c' hc'
      simp only [List.mem_cons, not_or] at hc'
      rw [g2 c' hc'.2]
      show Function.update s'.cltrs.means c (data r) c' = _
      rw [Function.update_of_ne hc'.1, h1]
    · intro pre c1 post he
      have hm2 : ∀ c', c' ∉ c :: rest → s2.cltrs.means c' = s'.cltrs.means c' := by
        intro c' hc'
        simp only [List.mem_cons, not_or] at hc'
        rw [g2 c' hc'.2]
        exact Function.update_of_ne hc'.1 _ _
      cases pre with
      | cons a pre =>
        simp only [List.cons_append, List.cons.injEq] at he
        obtain ⟨rfl, he⟩ := he
        obtain ⟨r1, d1, q1, q2, q3⟩ := g3 pre c1 post he
        refine ⟨r1, d1, q1, q2, ?_⟩
        rw [List.getLast_cons (by simp)]
        exact q3
      | nil =>
        simp only [List.nil_append, List.cons.injEq] at he
        obtain ⟨rfl, rfl⟩ := he
        refine ⟨r, fun q => val (s'.slots q).dist, ?_, ?_, hsam⟩
        · rw [g2 c hnd.1]
          exact Function.update_self ..
        · intro q hq
          refine ⟨(hd q hq).2.1, ?_, ?_⟩
          · obtain ⟨c', w, w1, hw, w3, w4⟩ := hval q hq
            refine ⟨c', w1, ?_⟩
            dsimp only
            rw [hm2 c' w1, w3, w4]
            exact hS.near q w hq hw
          · intro c' hc'
            obtain ⟨w, hw, ew⟩ := hpost.rows c' hc'
            have hle : val (s'.slots q).dist ≤ val (dist (data q) (data w)) := by
              rw [← ew]; exact hpost.le q hq c' hc'
            dsimp only
            rw [hm2 c' hc', show s'.cltrs.means c' = data w from ew]
            have := (abs_le.1 (hS.near q w hq hw)).2
            refine ⟨by linarith, fun h => ?_⟩
            have h0 := hS.zero q w hq hw fun j => congrFun h j
            exact le_antisymm (hle.trans h0.le) (hd q hq).2.1

/-- **k-means++ on doubles.** -/
theorem kppGen_near [DecidableLT R] [DecidableLE R] (hI : IeeeDouble fin val sqrt abs')
    {dist : Row R n → Row R n → R} {big : R} {data : Nat → Row R n} {N T L : Nat} {todo : Nat → Nat → List Nat}
    {sched : Nat → List Nat} {u : Nat → R} {dF : (Fin n → ℝ) → (Fin n → ℝ) → ℝ} {γ ζ : ℝ}
    (hS : SeedNear fin val dist big data N dF γ ζ) (hk : 0 < k)
    {fetch : Nat → Res (Row R n)} (hfe : ∀ r, r < N → fetch r = .ok (data r)) (hn : 0 < N) (hlt : N < 4294967296)
    (hsp : ∀ i, Split N T (todo i)) (hL : ∀ i t, (todo i t).length ≤ L) (hLT : L + T ≤ 2 ^ 34)
    (hc : ∀ i, Complete T (todo i) (sched i)) (hu : ∀ i, fin (u i) ∧ 0 ≤ val (u i) ∧ val (u i) ≤ 1)
    {first : Nat} (hf : first < N) (s : Kpp R R k n) (hs : ∀ r, r < N → (s.slots r).dist = big) :
    ∃ s', (∀ c0 rest, List.finRange k = c0 :: rest → kppLoopGen fetch dist data N T todo sched u rest c0
        { cltrs := s.cltrs.setMean (data first) c0, slots := Function.update s.slots first ⟨0, some c0⟩ } = .ok s') ∧
      ((∀ r, r < N → fin (s'.slots r).dist) ∧ Post (fun x y => val (dist x y)) data N [] (s'.map val)) ∧
      (∀ c, ∃ r, r < N ∧ s'.cltrs.means c = data r) ∧
      ∀ c : Fin k, (c.val = 0 → s'.cltrs.means c = data first) ∧
        (0 < c.val → ∃ r d, s'.cltrs.means c = data r ∧
          NearMinTo dF γ ζ (fun r j => val (data r j)) N (fun c' => c' < c) (fun c j => val (s'.cltrs.means c j)) d ∧
          NearSampled (drawErr L T N) (2 ^ (-1073 : Int)) d N (val (u (c.val - 1))) r) := by
  obtain ⟨k, rfl⟩ : ∃ m, k = m + 1 := ⟨k - 1, by omega⟩
  have hfr : List.finRange (k + 1) = 0 :: (List.finRange k).map Fin.succ := List.finRange_succ
  have hnd := List.nodup_finRange (k + 1)
  rw [hfr, List.nodup_cons] at hnd
  have hall : ∀ c : Fin (k + 1), c = 0 ∨ c ∈ (List.finRange k).map Fin.succ := by
    intro c
    have : c ∈ List.finRange (k + 1) := List.mem_finRange c
    rw [hfr] at this
    exact List.mem_cons.1 this
  set s1 : Kpp R R (k + 1) n :=
    { cltrs := s.cltrs.setMean (data first) 0, slots := Function.update s.slots first ⟨0, some 0⟩ } with hs1
  have hself : ∀ r, r < N → (fun x y => val (dist x y)) (data r) (data r) = 0 :=
    fun r hr => hS.zero r r hr hr fun _ => rfl
  have hpre : Pre (fun x y => val (dist x y)) data N ((List.finRange k).map Fin.succ) 0 (s1.map val) := by
    have := first_pre (dist := fun x y => val (dist x y)) (data := data) (N := N) (s := s.map val) (first := first)
      (big := val big) hall hnd.1 hself hf (fun r hr => hS.lt r first hr hf) (fun r hr => by
        show val (s.slots r).dist = _
        rw [hs r hr])
    convert this using 1
    unfold Kpp.map
    rw [hs1]
    congr 1
    funext q
    dsimp only
    by_cases h : q = first
    · subst h; rw [Function.update_self, Function.update_self, hI.zero.2]
    · rw [Function.update_of_ne h, Function.update_of_ne h]
  have hfs : ∀ r, r < N → fin (s1.slots r).dist := by
    intro r hr
    rw [hs1]
    dsimp only
    by_cases h : r = first
    · subst h; rw [Function.update_self]; exact hI.zero.1
    · rw [Function.update_of_ne h, hs r hr]; exact hS.bigFin
  obtain ⟨s', e, h0, h1, h2, h3⟩ := kppLoopGen_near hI hS hfe hn hlt hsp hL hLT hc hu _ 0 s1 hnd.2 hnd.1 hfs hpre
  refine ⟨s', ?_, h0, h1, fun c => ⟨fun h => ?_, fun h => ?_⟩⟩
  · intro c0 rest h
    rw [hfr, List.cons.injEq] at h
    obtain ⟨rfl, rfl⟩ := h
    exact e
  · have : c = 0 := Fin.ext h
    subst this
    rw [h2 0 hnd.1, hs1]
    show Function.update s.cltrs.means 0 (data first) 0 = _
    rw [Function.update_self]
  · obtain ⟨i, hi⟩ : ∃ i, c.val = i + 1 := ⟨c.val - 1, by omega⟩
    have hik : i < k := by have := c.isLt; omega
    have hdec : (List.finRange k).map Fin.succ = ((List.finRange k).map Fin.succ).take i ++
        c :: ((List.finRange k).map Fin.succ).drop (i + 1) := by
      conv_lhs => rw [← List.take_append_drop i ((List.finRange k).map Fin.succ)]
      rw [List.drop_eq_getElem_cons (by simpa using hik)]
      congr 2
      apply Fin.ext
      simp [hi]
    obtain ⟨r, d, g1, g2, g3⟩ := h3 _ c _ hdec
    have hlast : (((0 : Fin (k + 1)) :: ((List.finRange k).map Fin.succ).take i).getLast (by simp)).val
        = c.val - 1 := by
      rw [hi, Nat.add_sub_cancel]
      have hcons : (0 : Fin (k + 1)) :: ((List.finRange k).map Fin.succ).take i
          = (List.finRange (k + 1)).take (i + 1) := by rw [hfr]; rfl
      rw [List.getLast_congr (by simp) (by simp) hcons, List.getLast_eq_getElem]
      simp
      omega
    have hnot : ∀ c' : Fin (k + 1), c' ∉ c :: ((List.finRange k).map Fin.succ).drop (i + 1) ↔ c' < c := by
      intro c'
      have hm : c :: ((List.finRange k).map Fin.succ).drop (i + 1)
          = (List.finRange (k + 1)).drop (i + 1) := by
        rw [List.drop_eq_getElem_cons (l := List.finRange (k + 1)) (i := i + 1)
          (by rw [List.length_finRange]; omega)]
        congr 1
        · apply Fin.ext; simp [hi]
        · rw [hfr]; rfl
      rw [hm, List.mem_iff_getElem]
      constructor
      · intro h
        by_contra hle
        refine h ⟨c'.val - (i + 1), ?_, ?_⟩
        · have := c'.isLt
          have : c.val ≤ c'.val := not_lt.1 hle
          simp; omega
        · have : c.val ≤ c'.val := not_lt.1 hle
          apply Fin.ext
          simp; omega
      · rintro hlt' ⟨j, hj, e⟩
        have : c'.val = i + 1 + j := by rw [← e]; simp
        have : c'.val < c.val := hlt'
        omega
    rw [hlast] at g3
    refine ⟨r, d, g1, ?_, g3⟩
    intro q hq
    obtain ⟨w0, ⟨c', w1, w2⟩, w3⟩ := g2 q hq
    exact ⟨w0, ⟨c', (hnot c').1 w1, w2⟩, fun c' hc' => w3 c' ((hnot c').2 hc')⟩

/-- **k-means++ on doubles, pthread version**, with the distances and clusters that it leaves. -/
theorem kpp_near_slots [DecidableLT R] [DecidableLE R] (hI : IeeeDouble fin val sqrt abs')
    {dist : Row R n → Row R n → R} {big : R} {data : Nat → Row R n} {N nt T L : Nat} {todo : Nat → List Nat}
    {sched : Nat → List Nat} {u : Nat → R} {dF : (Fin n → ℝ) → (Fin n → ℝ) → ℝ} {γ ζ : ℝ}
    (hS : SeedNear fin val dist big data N dF γ ζ) (hk : 0 < k)
    (hn : 0 < N) (hnt : 0 < nt) (hlt : N < 4294967296)
    (hsp : Split N T todo) (hL : ∀ t, (todo t).length ≤ L) (hLT : L + T ≤ 2 ^ 34)
    (hc : ∀ i, Complete T todo (sched i)) (hu : ∀ i, fin (u i) ∧ 0 ≤ val (u i) ∧ val (u i) ≤ 1)
    {first : Nat} (hf : first < N) (s : Kpp R R k n) (hs : ∀ r, r < N → (s.slots r).dist = big) :
    ∃ s', kpp dist data N nt T todo sched first u s = .ok s' ∧
      ((∀ r, r < N → fin (s'.slots r).dist) ∧ Post (fun x y => val (dist x y)) data N [] (s'.map val)) ∧
      (∀ c, ∃ r, r < N ∧ s'.cltrs.means c = data r) ∧
      ∀ c : Fin k, (c.val = 0 → s'.cltrs.means c = data first) ∧
        (0 < c.val → ∃ r d, s'.cltrs.means c = data r ∧
          NearMinTo dF γ ζ (fun r j => val (data r j)) N (fun c' => c' < c) (fun c j => val (s'.cltrs.means c j)) d ∧
          NearSampled (drawErr L T N) (2 ^ (-1073 : Int)) d N (val (u (c.val - 1))) r) := by
  obtain ⟨s', e, h⟩ := kppGen_near (fetch := thdRow data N nt) (todo := fun _ => todo) (sched := sched) (u := u) hI hS hk
    (fun r hr => thdRow_ok hnt hr hlt) hn hlt (fun _ => hsp) (fun _ => hL) hLT hc hu hf s hs
  refine ⟨s', ?_, h⟩
  unfold kpp
  cases hfr : List.finRange k with
  | nil => exact absurd (congrArg List.length hfr) (by simp; omega)
  | cons c0 rest =>
    dsimp only
    rw [thdRow_ok hnt hf hlt]
    dsimp only
    rw [kppLoop_eq_gen]
    exact e c0 rest hfr

/-- **k-means++ on doubles, pthread version.** -/
theorem kpp_near [DecidableLT R] [DecidableLE R] (hI : IeeeDouble fin val sqrt abs')
    {dist : Row R n → Row R n → R} {big : R} {data : Nat → Row R n} {N nt T L : Nat} {todo : Nat → List Nat}
    {sched : Nat → List Nat} {u : Nat → R} {dF : (Fin n → ℝ) → (Fin n → ℝ) → ℝ} {γ ζ : ℝ}
    (hS : SeedNear fin val dist big data N dF γ ζ) (hk : 0 < k)
    (hn : 0 < N) (hnt : 0 < nt) (hlt : N < 4294967296)
    (hsp : Split N T todo) (hL : ∀ t, (todo t).length ≤ L) (hLT : L + T ≤ 2 ^ 34)
    (hc : ∀ i, Complete T todo (sched i)) (hu : ∀ i, fin (u i) ∧ 0 ≤ val (u i) ∧ val (u i) ≤ 1)
    {first : Nat} (hf : first < N) (s : Kpp R R k n) (hs : ∀ r, r < N → (s.slots r).dist = big) :
    ∃ s', kpp dist data N nt T todo sched first u s = .ok s' ∧
      (∀ c, ∃ r, r < N ∧ s'.cltrs.means c = data r) ∧
      ∀ c : Fin k, (c.val = 0 → s'.cltrs.means c = data first) ∧
        (0 < c.val → ∃ r d, s'.cltrs.means c = data r ∧
          NearMinTo dF γ ζ (fun r j => val (data r j)) N (fun c' => c' < c) (fun c j => val (s'.cltrs.means c j)) d ∧
          NearSampled (drawErr L T N) (2 ^ (-1073 : Int)) d N (val (u (c.val - 1))) r) := by
  obtain ⟨s', e, _, h⟩ := kpp_near_slots hI hS hk hn hnt hlt hsp hL hLT hc hu hf s hs
  exact ⟨s', e, h⟩

/-- **k-means++ on doubles, OpenMP version.** -/
theorem ompKpp_near [DecidableLT R] [DecidableLE R] (hI : IeeeDouble fin val sqrt abs')
    {dist : Row R n → Row R n → R} {big : R} {data : Nat → Row R n} {N T : Nat} {owner : Nat → Nat → Nat}
    {sched : Nat → List Nat} {u : Nat → R} {dF : (Fin n → ℝ) → (Fin n → ℝ) → ℝ} {γ ζ : ℝ}
    (hS : SeedNear fin val dist big data N dF γ ζ) (hk : 0 < k) (hn : 0 < N) (hlt : N < 4294967296)
    (ho : ∀ i r, r < N → owner i r < T) (hLT : N + T ≤ 2 ^ 34)
    (hc : ∀ i, Complete T (Omp.rows N T (owner i)) (sched i))
    (hu : ∀ i, fin (u i) ∧ 0 ≤ val (u i) ∧ val (u i) ≤ 1)
    {first : Nat} (hf : first < N) (s : Kpp R R k n) (hs : ∀ r, r < N → (s.slots r).dist = big) :
    ∃ s', Omp.kpp dist data N T owner sched first u s = .ok s' ∧
      (∀ c, ∃ r, r < N ∧ s'.cltrs.means c = data r) ∧
      ∀ c : Fin k, (c.val = 0 → s'.cltrs.means c = data first) ∧
        (0 < c.val → ∃ r d, s'.cltrs.means c = data r ∧
          NearMinTo dF γ ζ (fun r j => val (data r j)) N (fun c' => c' < c) (fun c j => val (s'.cltrs.means c j)) d ∧
          NearSampled (drawErr N T N) (2 ^ (-1073 : Int)) d N (val (u (c.val - 1))) r) := by
  have hlen : ∀ i t, (Omp.rows N T (owner i) t).length ≤ N := by
    intro i t
    unfold Omp.rows
    split
    · exact (List.length_filter_le _ _).trans List.length_range.le
    · simp
  obtain ⟨s', e, _, h⟩ := kppGen_near (fetch := fun r => .ok (data r)) (todo := fun i => Omp.rows N T (owner i))
    (sched := sched) (u := u) hI hS hk (fun r hr => rfl) hn hlt (fun i => Omp.split_rows (ho i)) hlen hLT hc hu hf s hs
  refine ⟨s', ?_, h⟩
  unfold Omp.kpp
  cases hfr : List.finRange k with
  | nil => exact absurd (congrArg List.length hfr) (by simp; omega)
  | cons c0 rest =>
    dsimp only
    rw [ompLoop_eq_gen]
    exact e c0 rest hfr

end Knor.Init
