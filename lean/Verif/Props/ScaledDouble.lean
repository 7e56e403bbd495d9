import Verif.Lemmas.ScaledNear
import Verif.Props.ScaledDriver

/-!
# Property C117: a whole scaled k-means call on doubles

C87 is about exact arithmetic.  Here are the call and the program `skmeans` on IEEE doubles.
-/

namespace Knor.Driver

open Knor Knor.Par Knor.Partition Knor.Spec Knor.NearLloyd Knor.Kmeans Knor.Distr Knor.Init Knor.Io

variable {R S B : Type _} {k n : Nat} [Zero R] [Add R] [Sub R] [Mul R] [Div R] [IntCast R] [NatCast R] [LT R] [LE R]
  {fin : R → Prop} {val : R → ℝ} {sqrt abs' : R → R} {big tiny : R}

/-- **C117.**  On IEEE doubles, for every initialisation, number of threads, interleaving and draws, a call with the
Euclidean, squared Euclidean or taxicab metric on rows no larger than `2^1022` without a constant column never fails:
it stretches the columns to the unit interval up to rounding, and returns what a k-means call on the stretched rows
owes.  Missing: the largest entry of every column has to be at least `2^-1022`, or else not negative while the
smallest is at most `-2^-960` (`C117_violated_negative`); given centres are used as they are
(`C87_violated_centers`). -/
theorem C117_call_partial [DecidableEq R] [DecidableLT R] [DecidableLE R] (hI : IeeeDouble fin val sqrt abs')
    (hbig : fin big ∧ val big = maxDouble) (htiny : fin tiny ∧ val tiny = 2 ^ (-1022 : Int))
    (cosd : Row R n → Row R n → R) {c : Codec R B} (hc : CodecOk c) (rng : Rng R S k) (s1 s2 : List Nat)
    (sched1 sched2 : Nat → List Nat) (a : Call R B) (m : Nat → Nat → R)
    (given : Option (Nat → Nat → R)) (hk : 0 < k) (hcol : 0 < n) (hcol' : n ≤ 4294967296) (hn : 0 < a.nrow)
    (hnt : 0 < a.nthreads) (hlt : a.nrow < 4294967296) (hsz : a.nrow * n * c.size < 9223372036854775808)
    (hst : Holds c a.source m a.nrow n) (hgiven : a.centers = given.map fun g => rowsFrom g n 0 k)
    (hrng : RngFin fin val rng a.nrow)
    (hcs1 : Complete (effThreads a.nthreads a.nrow) (threadRows a.nrow a.nthreads) s1)
    (hcs2 : Complete (effThreads a.nthreads a.nrow) (threadRows a.nrow a.nthreads) s2)
    (hc1 : ∀ i, Complete (effThreads a.nthreads a.nrow) (threadRows a.nrow a.nthreads) (sched1 i))
    (hc2 : ∀ i, Complete (effThreads a.nthreads a.nrow) (threadRows a.nrow a.nthreads) (sched2 i))
    (hm : ∀ r j, r < a.nrow → j < n → fin (m r j) ∧ |val (m r j)| ≤ 2 ^ (1022 : Int))
    (hne : ∀ j, j < n → ∃ r q, r < a.nrow ∧ q < a.nrow ∧ val (m r j) < val (m q j) ∧
      (2 ^ (-1022 : Int) ≤ val (m q j) ∨ 0 ≤ val (m q j) ∧ val (m r j) ≤ -2 ^ (-960 : Int)))
    (hg : ∀ g, given = some g → ∀ r j, r < k → j < n → fin (g r j) ∧ |val (g r j)| ≤ 2 ^ (400 : Int))
    (it : InitT) (met : Dist.Metric) (hi : getInit a.init = .ok it) (hd : getDist a.dist = .ok met) (hcos : met ≠ .cos) :
    ∃ scaled res, skmeans (anyDist sqrt abs' cosd) big tiny c rng s1 s2 sched1 sched2 a = .ok res ∧
      NearScaled fin val a.nrow (matRows m) scaled ∧
      NearDelivers fin val it met scaled a.nrow (min a.nthreads a.nrow) rng (givenCents given) a.tol a.maxIters res := by
  obtain ⟨ws, el, hrows⟩ := load_ok hc m a hn hnt hcol hlt hsz hst
  obtain ⟨rows, ep, hall, hsc⟩ := scaled_near (n := n) hI hbig htiny (rowsIn ws a.nrow a.nthreads) (matRows m) a.nrow
    a.nthreads s1 s2 hrows hn hnt hlt hcs1 hcs2 (fun r hr j => hm r j.val hr j.isLt) (fun j => hne j.val j.isLt)
  have h2 : (2 : ℝ) ≤ 2 ^ (400 : Int) := by
    have := p_le (show (1 : Int) ≤ 400 by norm_num)
    rwa [zpow_one] at this
  obtain ⟨cl, s, res, e0, es, er, hdel⟩ := cluster_near hI hbig cosd hcos rng (fun r j => (rows r j).val)
    (fun r j => (rows r j).val) a.nrow a.nthreads (fun _ _ => rfl) hk hn hnt hlt hcol'
    (fun r hr j => ⟨(nearScaled_le_two hsc hr j).1, (nearScaled_le_two hsc hr j).2.trans h2⟩) hrng sched1 sched2 hc1 hc2
    it given (fun g h cc j => by
      cases given with
      | none => cases h
      | some g' =>
        rw [← Option.some.inj h]
        exact hg g' rfl cc.val j.val cc.isLt j.isLt) a.tol a.maxIters
  refine ⟨_, res, ?_, hsc, hdel⟩
  unfold skmeans
  rw [hi]
  dsimp only
  rw [hd]
  dsimp only
  rw [hgiven, e0]
  dsimp only
  rw [el]
  dsimp only
  rw [ep]
  dsimp only
  rw [if_pos hall, es]
  exact er

/-- **C117, the program.**  `skmeans` on doubles: a data file whose size does not fit is refused; without a file of
centres the program starts with Forgy's method on the stretched rows, otherwise at the centres in the file. -/
theorem C117_program_partial [DecidableEq R] [DecidableLT R] [DecidableLE R] (hI : IeeeDouble fin val sqrt abs')
    (hbig : fin big ∧ val big = maxDouble) (htiny : fin tiny ∧ val tiny = 2 ^ (-1022 : Int))
    (cosd : Row R n → Row R n → R) {c : Codec R B} (hc : CodecOk c) (rng : Rng R S k) (s1 s2 : List Nat)
    (sched1 sched2 : Nat → List Nat) (datafn : List B) (centersfn : Option (List B))
    (nrow maxIters nthreads : Nat) (tol : R) (distType : String)
    (hk : 0 < k) (hcol : 0 < n) (hcol' : n ≤ 4294967296) (hn : 0 < nrow) (hnt : 0 < nthreads) (hlt : nrow < 4294967296)
    (hsz : nrow * n * c.size < 9223372036854775808) (hszk : k * n * c.size < 18446744073709551616)
    (hrng : RngFin fin val rng nrow)
    (hcs1 : Complete (effThreads nthreads nrow) (threadRows nrow nthreads) s1)
    (hcs2 : Complete (effThreads nthreads nrow) (threadRows nrow nthreads) s2)
    (hc1 : ∀ i, Complete (effThreads nthreads nrow) (threadRows nrow nthreads) (sched1 i))
    (hc2 : ∀ i, Complete (effThreads nthreads nrow) (threadRows nrow nthreads) (sched2 i)) :
    (datafn.length ≠ nrow * n * c.size →
      skmeansProg (anyDist sqrt abs' cosd) big tiny c rng s1 s2 sched1 sched2 datafn centersfn nrow maxIters nthreads tol
        distType = .error .throws) ∧
    ∀ (m : Nat → Nat → R) (given : Option (Nat → Nat → R)) met,
      Stores c datafn m nrow n → centersfn = given.map (fun g => (rowsFrom g n 0 k).flatMap c.enc) →
      (∀ r j, r < nrow → j < n → fin (m r j) ∧ |val (m r j)| ≤ 2 ^ (1022 : Int)) →
      (∀ j, j < n → ∃ r q, r < nrow ∧ q < nrow ∧ val (m r j) < val (m q j) ∧
        (2 ^ (-1022 : Int) ≤ val (m q j) ∨ 0 ≤ val (m q j) ∧ val (m r j) ≤ -2 ^ (-960 : Int))) →
      (∀ g, given = some g → ∀ r j, r < k → j < n → fin (g r j) ∧ |val (g r j)| ≤ 2 ^ (400 : Int)) →
      getDist distType = .ok met → met ≠ .cos →
      ∃ (scaled : Nat → Row R n) (res : Kmeans.Result R k n),
        skmeansProg (anyDist sqrt abs' cosd) big tiny c rng s1 s2 sched1 sched2 datafn centersfn nrow maxIters nthreads
          tol distType = .ok res ∧
        NearScaled fin val nrow (matRows m) scaled ∧
        NearDelivers fin val (if given.isSome then .none else .forgy) met scaled nrow (min nthreads nrow) rng
          (givenCents given) tol maxIters res := by
  constructor
  · intro hne
    unfold skmeansProg
    exact (program_ok hc datafn centersfn nrow k "forgy" _ hcol hk hsz hszk).2.1 (fun h => absurd h.2 (by decide)) hne
  · intro m given met hst hcf hm hne hg hd hcos
    have hlen : datafn.length = nrow * n * c.size := by
      unfold Stores at hst
      rw [hst, length_enc hc, length_rowsFrom]
    unfold skmeansProg
    obtain ⟨p1, p2⟩ := (program_ok hc datafn centersfn nrow k "forgy" (fun init centers =>
      skmeans (k := k) (n := n) (anyDist sqrt abs' cosd) big tiny c rng s1 s2 sched1 sched2
        ⟨.file datafn, nrow, maxIters, nthreads, centers, init, tol, distType⟩) hcol hk hsz hszk).2.2 given hlen hcf
    cases given with
    | none =>
      rw [p1 rfl (by decide)]
      exact C117_call_partial hI hbig htiny cosd hc rng s1 s2 sched1 sched2
        ⟨.file datafn, nrow, maxIters, nthreads, none, "forgy", tol, distType⟩ m none hk hcol hcol' hn hnt hlt hsz hst rfl
        hrng hcs1 hcs2 hc1 hc2 hm hne hg .forgy met rfl hd hcos
    | some g =>
      rw [p2 g rfl]
      exact C117_call_partial hI hbig htiny cosd hc rng s1 s2 sched1 sched2
        ⟨.file datafn, nrow, maxIters, nthreads, some (rowsFrom g n 0 k), "none", tol, distType⟩ m (some g) hk hcol hcol'
        hn hnt hlt hsz hst rfl hrng hcs1 hcs2 hc1 hc2 hm hne hg .none met rfl hd hcos

/-- **C117 is violated for negative columns.**  If all entries of a column are between `-2 b` and `-b` for some
`b > 0`, all of them end up between 0 and 5/8: the column is not stretched to the unit interval. -/
theorem C117_violated_negative [DecidableEq R] [DecidableLT R] (hI : IeeeDouble fin val sqrt abs')
    (hbig : fin big ∧ val big = maxDouble) (htiny : fin tiny ∧ val tiny = 2 ^ (-1022 : Int))
    (data : Nat → Row R n) (N nt : Nat) (s1 s2 : List Nat) (hn : 0 < N) (hnt : 0 < nt) (hlt : N < 4294967296)
    (hc1 : Complete (effThreads nt N) (threadRows N nt) s1) (hc2 : Complete (effThreads nt N) (threadRows N nt) s2)
    (hfin : ∀ r, r < N → ∀ j, fin (data r j)) (j : Fin n) (b : ℝ) (hb : 0 < b) (hb' : b ≤ 2 ^ (1020 : Int))
    (hneg : ∀ r, r < N → -(2 * b) ≤ val (data r j) ∧ val (data r j) ≤ -b) :
    ∃ rows, Skmeans.preprocess big tiny data N nt s1 s2 = .ok rows ∧
      ∀ r, r < N → ∃ x, rows r j = .fin x ∧ fin x ∧ 0 ≤ val x ∧ val x ≤ 5 / 8 := by
  obtain ⟨rows, g, h1, hg, h2⟩ := Skmeans.preprocess_vals (fin := fin) (val := val) hI.lt hbig.1 htiny.1
    (data := data) hn hnt hlt hfin hc1 hc2
  refine ⟨rows, h1, fun r hr => ?_⟩
  obtain ⟨f1, l2, l3⟩ := hg.lo j
  obtain ⟨f2, u1, u2, u3⟩ := hg.hi j
  have hp : (0 : ℝ) < 2 ^ (-1022 : Int) := p_pos _
  have eg : (g j).2 = tiny := by
    rcases u3 with h | ⟨q, hq, h⟩
    · exact h
    · rw [h, htiny.2] at u1
      have := (hneg q hq).2
      linarith
  have hL : -(2 * b) ≤ val (g j).1 ∧ val (g j).1 ≤ -b := by
    rcases l3 with h | ⟨q, hq, h⟩
    · have h3 := l2 r hr
      rw [h, hbig.2] at h3
      have h4 := (hneg r hr).2
      have h5 := (p_pos 1023).le.trans p_le_max
      linarith
    · rw [h]; exact hneg q hq
  obtain ⟨q1, q2⟩ := hneg r hr
  have hvl := l2 r hr
  rw [h2 r hr j, eg]
  obtain ⟨x, hx⟩ : ∃ x, x = data r j := ⟨_, rfl⟩
  obtain ⟨l, hl⟩ : ∃ l, l = (g j).1 := ⟨_, rfl⟩
  rw [← hx] at q1 q2 hvl ⊢
  rw [← hl] at hL hvl f1 ⊢
  have fx : fin x := by rw [hx]; exact hfin r hr j
  have hA := hI.rounds
  have hb4 : 4 * b ≤ maxDouble := by
    refine le_trans ?_ p_le_max
    rw [show (1023 : Int) = 3 + 1020 by norm_num, zpow_add₀ (by norm_num) 3 1020]
    have : (2 : ℝ) ^ (3 : Int) = 8 := by norm_num
    rw [this]
    have := (p_pos 1020).le
    generalize (2 : ℝ) ^ (1020 : Int) = w at *
    linarith
  have htd : (2 : ℝ) ^ (-1022 : Int) ≤ 1 := by
    have := p_le (show (-1022 : Int) ≤ 0 by norm_num)
    rwa [zpow_zero] at this
  have hmax8 : (8 : ℝ) ≤ maxDouble := by
    refine le_trans ?_ p_le_max
    have := p_le (show (3 : Int) ≤ 1023 by norm_num)
    have h8 : (2 : ℝ) ^ (3 : Int) = 8 := by norm_num
    rwa [h8] at this
  have b1 : |val x - val l| ≤ maxDouble := by
    rw [abs_of_nonneg (by linarith)]
    linarith [hL.1]
  have b2 : |val tiny - val l| ≤ maxDouble := by
    rw [htiny.2, abs_of_nonneg (by linarith [hL.2])]
    have h9 : (2 : ℝ) ^ (-1022 : Int) + 2 * 2 ^ (1020 : Int) ≤ maxDouble := by
      refine le_trans ?_ p_le_max
      rw [show (1023 : Int) = 3 + 1020 by norm_num, zpow_add₀ (by norm_num) 3 1020]
      have h3 : (2 : ℝ) ^ (3 : Int) = 8 := by norm_num
      have h4 := p_le (show (-1022 : Int) ≤ 1020 by norm_num)
      have h5 := p_pos 1020
      rw [h3]
      generalize (2 : ℝ) ^ (-1022 : Int) = w at *
      generalize (2 : ℝ) ^ (1020 : Int) = w' at *
      linarith
    refine le_trans ?_ h9
    have := hL.1
    generalize (2 : ℝ) ^ (-1022 : Int) = w at *
    linarith
  obtain ⟨g1, e1⟩ := hA.sub x l fx f1 b1
  have n1 := nearest_nonneg (sub_nonneg.2 hvl) (hI.sub x l fx f1 b1).2
  obtain ⟨g2, e2⟩ := hA.sub tiny l htiny.1 f1 b2
  rw [abs_of_nonneg (sub_nonneg.2 hvl)] at e1
  have hd0 : 0 ≤ val tiny - val l := by rw [htiny.2]; linarith [hL.2]
  have hdl : -val l ≤ val tiny - val l := by rw [htiny.2]; linarith
  rw [abs_of_nonneg hd0] at e2
  have h53 : (2 : ℝ) ^ (-53 : Int) ≤ 1 / 64 := by norm_num
  have w1 : val (x - l) ≤ 65 / 128 * -val l := by
    have a1 := (abs_le.1 e1).2
    have a2 := mul_le_mul_of_nonneg_right h53 (sub_nonneg.2 hvl)
    have a3 := hL.1
    generalize (2 : ℝ) ^ (-53 : Int) * (val x - val l) = z at *
    clear e2 h53 hA
    linarith
  have w2 : 63 / 64 * -val l ≤ val (tiny - l) := by
    have a1 := (abs_le.1 e2).1
    have a2 := mul_le_mul_of_nonneg_right h53 hd0
    generalize (2 : ℝ) ^ (-53 : Int) * (val tiny - val l) = z at *
    clear e1 h53 hA
    linarith
  have hlp : 0 < -val l := by linarith [hL.2]
  have s2 : 0 < val (tiny - l) := lt_of_lt_of_le (by linarith) w2
  have hq : val (x - l) / val (tiny - l) ≤ 65 / 126 := by
    rw [div_le_iff₀ s2]
    linarith
  have hq0 : 0 ≤ val (x - l) / val (tiny - l) := div_nonneg n1 s2.le
  have b3 : |val (x - l) / val (tiny - l)| ≤ maxDouble := by
    rw [abs_of_nonneg hq0]
    linarith
  have hne : tiny - l ≠ 0 := by
    intro h
    rw [h, hI.zero.2] at s2
    exact lt_irrefl _ s2
  obtain ⟨g3, e3⟩ := hA.div _ _ g1 g2 s2.ne' b3
  refine ⟨(x - l) / (tiny - l), by simp [Skmeans.scaleEntry, hne], g3, nearest_nonneg hq0 (hI.div _ _ g1 g2 s2.ne' b3).2, ?_⟩
  rw [abs_of_nonneg hq0] at e3
  have a1 := (abs_le.1 e3).2
  have a2 := mul_le_mul_of_nonneg_right h53 hq0
  have a3 : (2 : ℝ) ^ (-1075 : Int) ≤ 2 ^ (-4 : Int) := p_le (by norm_num)
  have a4 : (2 : ℝ) ^ (-4 : Int) = 1 / 16 := by norm_num
  rw [a4] at a3
  generalize val (x - l) / val (tiny - l) = z at *
  generalize (2 : ℝ) ^ (-53 : Int) * z = z' at *
  generalize (2 : ℝ) ^ (-1075 : Int) = z'' at *
  linarith

/-! ### Calls that meet the hypotheses -/

noncomputable instance : DecidableEq Dbl := Classical.decEq _

/-- The smallest normal double. -/
noncomputable def dblTiny : Dbl := ⟨2 ^ (-1022 : Int)⟩

theorem dblTiny_ok : Dbl.Fin' dblTiny ∧ Dbl.v dblTiny = 2 ^ (-1022 : Int) :=
  ⟨⟨1, -1022, by norm_num, by norm_num, by norm_num, by simp [dblTiny]⟩, rfl⟩

/-- The rows 0, 1, 2, 3 in a file, for every initialisation and every treated metric. -/
theorem dbl_scaled (init dist : String) (maxIters : Nat) (it : InitT) (met : Dist.Metric)
    (hi : getInit init = .ok it) (hd : getDist dist = .ok met) (hcos : met ≠ .cos) :
    ∃ scaled res, skmeans (n := 1) (anyDist (fun x => Dbl.rnd (√x.v)) (fun x => ⟨|x.v|⟩) fun _ _ => 0) ⟨maxDouble⟩ dblTiny
        (oneCell Dbl) dblRng (demoSched 0) (demoSched 0) demoSched demoSched (dblCall init dist maxIters) = .ok res ∧
      NearScaled Dbl.Fin' Dbl.v 4 (matRows fun r _ => ⟨(r : ℝ)⟩) scaled ∧
      NearDelivers Dbl.Fin' Dbl.v it met scaled 4 2 dblRng none ⟨0⟩ maxIters res := by
  have := C117_call_partial (n := 1) Dbl.ieee dbl_input.big dblTiny_ok (fun _ _ => 0) (oneCell_ok Dbl) dblRng
    (demoSched 0) (demoSched 0) demoSched demoSched
    (dblCall init dist maxIters) (fun r _ => ⟨(r : ℝ)⟩) none (by norm_num) (by norm_num) (by norm_num) (by simp [dblCall])
    (by simp [dblCall]) (by simp [dblCall]) (by simp [dblCall, oneCell])
    (by simp [Holds, dblCall, Stores, oneCell, rowsFrom, rowOf, List.range', List.range_succ]) rfl dblRng_fin
    (demo_complete 0) (demo_complete 0) demo_complete demo_complete
    (fun r j hr _ => by
      obtain ⟨h1, h2⟩ := dbl_small r (by have : r < 4 := hr; omega)
      exact ⟨h1, h2.trans (p_le (by norm_num))⟩)
    (fun j _ => ⟨0, 1, by simp [dblCall], by simp [dblCall], by simp, .inl (by
      have := p_le (show (-1022 : Int) ≤ 0 by norm_num)
      rw [zpow_zero] at this
      simpa using this)⟩) (fun g h => by cases h) it met hi hd hcos
  exact this

example : ∃ scaled res, skmeans (n := 1) (anyDist (fun x => Dbl.rnd (√x.v)) (fun x => ⟨|x.v|⟩) fun _ _ => 0) ⟨maxDouble⟩
      dblTiny (oneCell Dbl) dblRng (demoSched 0) (demoSched 0) demoSched demoSched (dblCall "kmeanspp" "eucl" 5) = .ok res ∧
    NearScaled Dbl.Fin' Dbl.v 4 (matRows fun r _ => ⟨(r : ℝ)⟩) scaled ∧
    NearDelivers Dbl.Fin' Dbl.v .plusplus .eucl scaled 4 2 dblRng none ⟨0⟩ 5 res :=
  dbl_scaled "kmeanspp" "eucl" 5 .plusplus .eucl rfl rfl (by decide)

/-- The program on the rows -1, 0, -1, 0: the largest entry is not positive. -/
example (tol : Dbl) : ∃ (scaled : Nat → Row Dbl 1) (res : Kmeans.Result Dbl 2 1),
    skmeansProg (anyDist (fun x => Dbl.rnd (√x.v)) (fun x => ⟨|x.v|⟩) fun _ _ => 0) ⟨maxDouble⟩ dblTiny (oneCell Dbl) dblRng
      (demoSched 0) (demoSched 0) demoSched demoSched
      ((rowsFrom (fun r _ => (⟨if r % 2 = 0 then -1 else 0⟩ : Dbl)) 1 0 4).flatMap (oneCell Dbl).enc) none 4 5 2 tol
      "taxi" = .ok res ∧
    NearScaled Dbl.Fin' Dbl.v 4 (matRows fun r _ => ⟨if r % 2 = 0 then -1 else 0⟩) scaled ∧
    NearDelivers Dbl.Fin' Dbl.v .forgy .taxi scaled 4 2 dblRng none tol 5 res :=
  (C117_program_partial (k := 2) (n := 1) Dbl.ieee dbl_input.big dblTiny_ok (fun _ _ => 0) (oneCell_ok Dbl) dblRng
    (demoSched 0) (demoSched 0) demoSched demoSched _ none 4 5 2 tol "taxi" (by decide) (by decide) (by decide) (by decide)
    (by decide) (by decide) (by decide) (by decide) dblRng_fin (demo_complete 0) (demo_complete 0) demo_complete
    demo_complete).2 _ none .taxi rfl rfl
    (fun r j _ _ => by
      by_cases h : r % 2 = 0
      · rw [if_pos h]
        refine ⟨isDouble_neg MiniBatch.isDouble_one, ?_⟩
        show |(-1 : ℝ)| ≤ _
        rw [abs_neg, abs_one]
        have := p_le (show (0 : Int) ≤ 1022 by norm_num)
        rwa [zpow_zero] at this
      · rw [if_neg h]
        refine ⟨isDouble_zero, ?_⟩
        show |(0 : ℝ)| ≤ _
        rw [abs_zero]
        exact (p_pos _).le)
    (fun j _ => ⟨0, 1, by decide, by decide, by simp, .inr ⟨by simp, by
      have := p_le (show (-960 : Int) ≤ 0 by norm_num)
      rw [zpow_zero] at this
      show (-1 : ℝ) ≤ _
      exact neg_le_neg this⟩⟩) (fun g h => by cases h) rfl (by decide)

/-- The rows -2, -1, -2, -1. -/
example : ∃ rows, Skmeans.preprocess (n := 1) ⟨maxDouble⟩ dblTiny (fun r _ => (⟨if r % 2 = 0 then -2 else -1⟩ : Dbl)) 4 2
      (demoSched 0) (demoSched 0) = .ok rows ∧
    ∀ r, r < 4 → ∃ x, rows r 0 = .fin x ∧ Dbl.Fin' x ∧ 0 ≤ Dbl.v x ∧ Dbl.v x ≤ 5 / 8 :=
  C117_violated_negative Dbl.ieee dbl_input.big dblTiny_ok _ 4 2 (demoSched 0) (demoSched 0) (by decide) (by decide)
    (by decide) (demo_complete 0) (demo_complete 0) (fun r _ j => by
      have h2 : IsDouble (2 : ℝ) := by
        have := nat_isDouble (m := 2) (by norm_num)
        simpa using this
      by_cases h : r % 2 = 0
      · rw [if_pos h]; exact isDouble_neg h2
      · rw [if_neg h]; exact isDouble_neg MiniBatch.isDouble_one) 0 1 (by norm_num) (by
      have := p_le (show (0 : Int) ≤ 1020 by norm_num)
      rwa [zpow_zero] at this) (fun r _ => by
      by_cases h : r % 2 = 0
      · rw [if_pos h]; exact ⟨by norm_num, by norm_num⟩
      · rw [if_neg h]; exact ⟨by norm_num, by norm_num⟩)

end Knor.Driver
