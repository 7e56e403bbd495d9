import Verif.Lemmas.DistrPruneNear
import Verif.Props.Driver

/-!
# Pruned k-means in one process, in rounded arithmetic

Here the workers' sums are added to the recovered sums one after the other, where the distributed version adds the
reduced total.
-/

namespace Knor.Prune

open Knor Knor.Par Knor.Partition Knor.Spec Knor.Distr

variable {R F : Type _} {k n : Nat} [Zero R] [Add R] [Sub R] [Mul R] [Div R] [IntCast R] [NatCast R]
  [LT R] [DecidableLT R] [LE R] [DecidableLE R] [Field F] [LinearOrder F]
  [IsStrictOrderedRing F] {fin : R → Prop} {val : R → F} {u η M X : F} {K : Nat}

/-! ### Totality of the row function in any arithmetic -/

omit [Zero R] [Add R] [Sub R] [Mul R] [Div R] [IntCast R] [NatCast R] in
theorem pruneLoop_any {big : R} {d : Fin k → R} {dm : DistMatrix R}
    (hw : ∀ a c : Fin k, ∃ g, dm.get big a.val c.val = .ok g) (l : List (Fin k)) :
    ∀ st, ∃ st', pruneLoop big d dm l st = .ok st' := by
  induction l with
  | nil => intro st; exact ⟨st, rfl⟩
  | cons c l ih =>
    rintro ⟨a, ub, rc⟩
    obtain ⟨g, hg⟩ := hw a c
    rw [pruneLoop, hg]
    simp only
    by_cases h1 : ub ≤ g
    · rw [if_pos h1]; exact ih _
    · rw [if_neg h1]
      by_cases h2 : (if rc = true then ub else d a) ≤ g
      · rw [if_pos h2]; exact ih _
      · rw [if_neg h2]
        by_cases h3 : d c < (if rc = true then ub else d a)
        · rw [if_pos h3]; exact ih _
        · rw [if_neg h3]; exact ih _

omit [Zero R] [Sub R] [Mul R] [Div R] [IntCast R] [NatCast R] in
theorem slotStep_any {dist : Row R n → Row R n → R} {big : R} {data : Nat → Row R n} {v : View R R k n}
    (hw : ∀ a c : Fin k, ∃ g, v.dm.get big a.val c.val = .ok g) {r : Nat} {s : Slot R k} {a : Fin k}
    (ha : s.assign = some a) :
    ∃ s', slotStep dist big data v false r s = .ok s' ∧ ∃ c, s'.assign = some c := by
  unfold slotStep
  simp only [Bool.false_eq_true, if_false, ha]
  split
  · exact ⟨_, rfl, a, rfl⟩
  · obtain ⟨⟨a', ub', rc'⟩, e⟩ := pruneLoop_any (big := big)
      (d := fun c => dist (data r) (v.cents c)) hw (List.finRange k) (a, s.ub + v.prevDist a, false)
    rw [e]
    exact ⟨_, rfl, a', rfl⟩

/-! ### The sums -/

omit [NatCast R] [DecidableLT R] [LE R] [DecidableLE R] in
/-- The workers' sums, added to `start` in thread order. -/
theorem mergeAcc_from {D : Type _} (hA : RoundsAll fin val u η M K) {N T L : Nat} {todo : Nat → List Nat}
    (hsp : Split N T todo) (hL : ∀ t, (todo t).length ≤ L) (data : Nat → Row R n)
    (hfin : ∀ r, r < N → ∀ j, fin (data r j)) (pi : Bool) (s s' : Nat → Slot D k)
    (h1 : ∀ r, r < N → ∃ y, (s' r).assign = some y) (h2 : pi = false → ∀ r, r < N → ∃ x, (s r).assign = some x)
    (acc : Nat → Kmeans.Acc R k n)
    (hacc : ∀ t, acc t = (todo t).foldl (fun a r => accStep data pi r (s r) (s' r) a) Kmeans.Acc.init)
    (start : Clusters R k n) (y b : Fin k → Fin n → F) (hst : ∀ c j, Near fin val u L (start.means c j) (y c j) (b c j))
    (hM : ∀ c j, (1 + u) ^ (L + T) * (b c j + ∑ r ∈ Finset.range N, |val (data r j)|) ≤ M) (chg : Nat) :
    let m := (List.range T).foldl (fun x t => Clusters.peq x (acc t).loc) start
    (∀ c, m.complete c = start.complete c) ∧
    (∀ c, m.num c = start.num c + ∑ r ∈ Finset.range N, rowDelta pi (s r).assign (s' r).assign c (1 : Int)) ∧
    (∀ c j, Near fin val u (L + T) (m.means c j)
      (y c j + ∑ r ∈ Finset.range N, rowDelta pi (s r).assign (s' r).assign c (val (data r j)))
      (b c j + ∑ r ∈ Finset.range N, |val (data r j)|)) ∧
    (List.range T).foldl (fun m t => m + (acc t).changed) chg =
      chg + ∑ r ∈ Finset.range N, rowChange pi (s r).assign (s' r).assign := by
  intro m
  have hu := hA.u_nonneg
  have hmem : ∀ t r, r ∈ todo t → r < N := fun t r hr => (hsp.mem_iff r).1 ⟨t, hr⟩
  have hcnt := fun t => accFold_count data pi s s' (todo t) (Kmeans.Acc.init)
    (fun r hr => h1 r (hmem t r hr)) (fun hp r hr => h2 hp r (hmem t r hr))
  obtain ⟨m1, m2, m3⟩ := Clusters.foldl_peq_any ((List.range T).map fun t => (acc t).loc) start
  have hm : m = List.foldl Clusters.peq start ((List.range T).map fun t => (acc t).loc) :=
    Kmeans.foldl_map' Clusters.peq (fun t => (acc t).loc) _ _
  rw [hm]
  refine ⟨fun c => by rw [m1], ?_, ?_, ?_⟩
  · intro c
    rw [m3, List.map_map, ← hsp.sum]
    congr 2
    apply List.map_congr_left
    intro t _
    simp only [Function.comp_apply]
    rw [hacc t, (hcnt t).2 c]
    exact zero_add _
  · intro c j
    rw [m2, List.map_map, ← hsp.sum, ← hsp.sum]
    set A : Nat → F := fun t => ((todo t).map fun r => |val (data r j)|).sum with hAdef
    have hA0 : ∀ t, 0 ≤ A t := by
      intro t
      apply List.sum_nonneg
      intro z hz
      obtain ⟨r, _, rfl⟩ := List.mem_map.1 hz
      exact abs_nonneg _
    have hAsum : ((List.range T).map A).sum = ∑ r ∈ Finset.range N, |val (data r j)| := hsp.sum _
    have hb0 : 0 ≤ b c j := (abs_nonneg _).trans (hst c j).le
    have hAle : ∀ t ∈ List.range T, A t ≤ b c j + ∑ r ∈ Finset.range N, |val (data r j)| := by
      intro t ht
      rw [← hAsum]
      refine le_add_of_nonneg_of_le hb0 ?_
      apply List.single_le_sum
      · intro z hz
        obtain ⟨t', _, rfl⟩ := List.mem_map.1 hz
        exact hA0 t'
      · exact List.mem_map.2 ⟨t, ht, rfl⟩
    have hloc : ∀ t ∈ List.range T, Near fin val u L (((fun x : Clusters R k n => x.means c j) ∘
        fun t => (acc t).loc) t)
        ((todo t).map fun r => rowDelta pi (s r).assign (s' r).assign c (val (data r j))).sum (A t) := by
      intro t ht
      simp only [Function.comp_apply]
      rw [hacc t]
      have := accFold_near hA data pi s s' c j (todo t) Kmeans.Acc.init 0 0 0 (near_zero hA.toRounds)
        (fun r hr => h1 r (hmem t r hr)) (fun hp r hr => h2 hp r (hmem t r hr))
        (fun r hr => hfin r (hmem t r hr) j) (by
          rw [zero_add, zero_add]
          refine le_trans ?_ (hM c j)
          exact mul_le_mul (pow_le_pow_right₀ (by linarith) ((hL t).trans (Nat.le_add_right _ _))) (hAle t ht) (hA0 t)
            (pow_nonneg (by linarith) _))
      rw [zero_add, zero_add, zero_add] at this
      exact this.mono hu (hL t)
    have := near_foldl hA.toRounds _ _ A (m0 := L) (List.range T) L _ _ _ le_rfl (hst c j) hloc
      (by rw [hAsum, List.length_range]; exact hM c j)
    rw [List.length_range] at this
    exact this
  · rw [Kmeans.foldl_add_eq, ← hsp.sum]
    congr 2
    apply List.map_congr_left
    intro t _
    rw [hacc t, (hcnt t).1]
    exact zero_add _

omit [NatCast R] in
/-- One E-step and M-step: where the numbers come from. -/
theorem iteration_sums (hA : RoundsAll fin val u η M K) {dist eucl : Row R n → Row R n → R} {big : R}
    {data : Nat → Row R n} {N nt W : Nat} {pi : Bool} {sched : List Nat} {s : PState R R k n}
    (hn : 0 < N) (hnt : 0 < nt) (hlt : N + 8192 < 4294967296)
    (hc : Complete (effThreads nt N) (taskRows N nt) sched)
    (hW : N / effThreads nt N + N % effThreads nt N + effThreads nt N ≤ W)
    (hfin : ∀ r, r < N → ∀ j, fin (data r j))
    (hg : ∀ r, r < N → ∃ s', slotStep dist big data s.view pi r (s.slots r) = .ok s' ∧ ∃ i, s'.assign = some i)
    (hinv : pi = false → (∀ r, r < N → ∃ i, (s.slots r).assign = some i) ∧
      (∀ c, s.cltrs.num c = (Spec.count N (assignOf s.slots) c : Int)) ∧ ∀ c, s.cltrs.complete c = true)
    (hU : pi = false → ∀ c j, fin (unfin (Spec.count N (assignOf s.slots) c) (s.cltrs.means c j)))
    (hM : ∀ c j, (1 + u) ^ W * ((if pi then 0 else
      |val (unfin (Spec.count N (assignOf s.slots) c) (s.cltrs.means c j))|) + ∑ r ∈ Finset.range N, |val (data r j)|) ≤ M) :
    ∃ (slots : Nat → Slot R k) (S : Clusters R k n) (z : Fin k → Fin n → R),
      (∀ r, r < N → slotStep dist big data s.view pi r (s.slots r) = .ok (slots r)) ∧
      iteration dist eucl big data N nt pi sched s = .ok
        { s with
          cltrs := S
          prevMeans := if pi then s.prevMeans else s.cltrs.means
          prevDist := fun c => eucl (S.means c) ((if pi then s.prevMeans else s.cltrs.means) c)
          slots := slots
          counts := S.num
          changed := s.changed + if pi then N else numChanged N (assignOf s.slots) (assignOf slots) } ∧
      (∀ c, S.num c = (Spec.count N (assignOf slots) c : Int)) ∧ (∀ c, S.complete c = true) ∧
      (∀ c j, S.means c j = finz (Spec.count N (assignOf slots) c) (z c j)) ∧
      ∀ c j, Near fin val u W (z c j)
        (memberSum N (fun r j => val (data r j)) (assignOf slots) c j + if pi then 0 else
          val (unfin (Spec.count N (assignOf s.slots) c) (s.cltrs.means c j)) -
            memberSum N (fun r j => val (data r j)) (assignOf s.slots) c j)
        ((if pi then 0 else |val (unfin (Spec.count N (assignOf s.slots) c) (s.cltrs.means c j))|) +
          ∑ r ∈ Finset.range N, |val (data r j)|) := by
  have hu := hA.u_nonneg
  have hsp := split_taskRows hn hnt hlt
  obtain ⟨q, e, h1, h2, h3⟩ := run_det (α := Kmeans.Acc R k n)
    (f := emRow dist big data s.view pi) (g := slotStep dist big data s.view pi)
    (h := accStep data pi) (fun r m a => by
      rw [emRow_eq]; cases slotStep dist big data s.view pi r m <;> rfl)
    (s0 := { mem := s.slots, acc := fun _ => Kmeans.Acc.init, todo := taskRows N nt })
    hsp hc (fun r hr => by obtain ⟨s', h, _⟩ := hg r hr; exact ⟨s', h⟩)
  have hsome : ∀ r, r < N → ∃ i, (q.mem r).assign = some i := by
    intro r hr
    obtain ⟨s', h, i, hi⟩ := hg r hr
    have := h1 r hr
    simp only at this
    rw [h] at this
    simp only [Except.ok.injEq] at this
    exact ⟨i, by rw [← this]; exact hi⟩
  set start : Clusters R k n := if pi then Clusters.empty else s.cltrs.unfinalizeAll with hstart
  have hsm : pi = false → ∀ c j, start.means c j = unfin (Spec.count N (assignOf s.slots) c) (s.cltrs.means c j) := by
    intro hp c j
    rw [hstart, hp]
    simp only [Bool.false_eq_true, if_false]
    rw [Clusters.unfinalizeAll_means]
    unfold Clusters.unfinMean unfin
    rw [if_pos ((hinv hp).2.2 c), (hinv hp).2.1 c]
    by_cases h : Spec.count N (assignOf s.slots) c < 2
    · rw [if_pos (by exact_mod_cast h), if_pos h]
    · rw [if_neg (by exact_mod_cast h), if_neg h]
  have hexact : ∀ (x : R) m, fin x → Near fin val u m x (val x) |val x| := fun x m hx =>
    ⟨hx, le_rfl, by
      have := one_le_pow_u hu m
      rw [sub_self, abs_zero]
      exact mul_nonneg (by linarith) (abs_nonneg _)⟩
  have hstn : ∀ c j, Near fin val u (N / effThreads nt N + N % effThreads nt N) (start.means c j)
      (if pi then 0 else val (unfin (Spec.count N (assignOf s.slots) c) (s.cltrs.means c j)))
      (if pi then 0 else |val (unfin (Spec.count N (assignOf s.slots) c) (s.cltrs.means c j))|) := by
    intro c j
    cases hp : pi with
    | true =>
      rw [hstart, hp]
      exact (near_zero hA.toRounds).mono hu (Nat.zero_le _)
    | false =>
      simp only [Bool.false_eq_true, if_false]
      rw [hsm hp]
      exact hexact _ _ (hU hp c j)
  obtain ⟨m1, m2, m3, m4⟩ := mergeAcc_from hA hsp (Distr.taskRows_length hn hnt hlt) data hfin pi s.slots q.mem hsome
    (fun h => (hinv h).1) q.acc h3 start _ _ hstn (fun c j => le_trans (mul_le_mul_of_nonneg_right
      (pow_le_pow_right₀ (by linarith) hW) (add_nonneg ((abs_nonneg _).trans (hstn c j).le)
        (Finset.sum_nonneg fun _ _ => abs_nonneg _))) (hM c j)) s.changed
  set merged := (List.range (effThreads nt N)).foldl (fun x t => Clusters.peq x (q.acc t).loc) start with hmg
  have hnum : ∀ c, merged.num c = (Spec.count N (assignOf q.mem) c : Int) := by
    intro c
    rw [m2 c, show (∑ r ∈ Finset.range N, rowDelta pi (s.slots r).assign (q.mem r).assign c (1 : Int)) = _ from
      sum_rowDelta N (fun _ => (1 : Int)) pi (assignOf s.slots) (assignOf q.mem) c, count_eq]
    cases hp : pi with
    | true =>
      rw [hstart, hp]
      simp only [if_true]
      rw [show (Clusters.empty : Clusters R k n).num c = 0 from rfl]
      ring
    | false =>
      rw [hstart, hp]
      simp only [Bool.false_eq_true, if_false]
      rw [Clusters.unfinalizeAll_num, (hinv hp).2.1 c, count_eq]
      ring
  have hcomp : ∀ c, merged.complete c = false := by
    intro c
    rw [m1 c, hstart]
    cases pi with
    | true => rfl
    | false =>
      simp only [Bool.false_eq_true, if_false]
      exact Clusters.unfinalizeAll_complete _ c
  have hchk : (List.finRange k).foldl (fun m c => m + merged.finalizeAll.num c) (0 : Int) = (N : Int) := by
    rw [Kmeans.foldl_add_eq, Kmeans.sum_finRange, zero_add]
    simp only [Clusters.finalizeAll_num, hnum]
    rw [← Nat.cast_sum, Kmeans.sum_count_of_all_assigned N (assignOf q.mem) hsome]
  have hch : ∑ r ∈ Finset.range N, rowChange pi (s.slots r).assign (q.mem r).assign =
      if pi then N else numChanged N (assignOf s.slots) (assignOf q.mem) := by
    unfold rowChange
    cases pi with
    | true => simp
    | false =>
      simp only [Bool.false_eq_true, if_false]
      rw [Kmeans.numChanged_eq_sum]; rfl
  refine ⟨q.mem, merged.finalizeAll, merged.means, h1, ?_, fun c => by rw [Clusters.finalizeAll_num]; exact hnum c,
    fun c => Clusters.finalizeAll_complete _ c, fun c j => ?_, fun c j => ?_⟩
  · unfold iteration
    rw [e]
    simp only
    unfold updateClusters
    simp only
    rw [← hstart, ← hmg, if_neg (by rw [hchk]; simp), m4, hch]
  · rw [Clusters.finalizeAll_means]
    unfold Clusters.finMean finz
    rw [hcomp c, hnum c]
    simp only [Bool.false_eq_true, if_false]
    by_cases h : 1 < Spec.count N (assignOf q.mem) c
    · rw [if_pos (by exact_mod_cast h), if_pos h]
    · rw [if_neg (by exact_mod_cast h), if_neg h]
  · have h := (m3 c j).mono hu hW
    rw [show (∑ r ∈ Finset.range N, rowDelta pi (s.slots r).assign (q.mem r).assign c (val (data r j))) = _ from
      sum_rowDelta N (fun r => val (data r j)) pi (assignOf s.slots) (assignOf q.mem) c] at h
    rw [memberSum_eq, memberSum_eq]
    convert h using 1
    cases pi
    · simp; ring
    · simp

/-! ### The centroids -/

/-- Bounds for the error analysis of the centroids; `W` bounds the number of additions for one sum. -/
structure OErr (u η M X G κ : F) (g W maxIters : Nat) : Prop where
  u_le : u ≤ 1 / 8
  pow_le : (1 + u) ^ W ≤ 2
  sum_le : g * X ≤ G
  under_le : g * η ≤ u * G
  m_le : 8 * G ≤ M
  kappa : κ = (4 * ((1 + u) ^ W - 1) + 13 * u) * G
  iters_le : maxIters * κ ≤ G

omit [NatCast R] [DecidableLT R] [LE R] [DecidableLE R] in
/-- The recovered sum of a cluster. -/
theorem unfin_next (hA : RoundsAll fin val u η M K) {G κ : F} {g W maxIters i : Nat}
    (hE : OErr u η M X G κ g W maxIters) (hX : 0 ≤ X) (hg : 0 < g) (hK : g ≤ K) (hi : i ≤ maxIters)
    {c : Nat} (hc : c ≤ g) {m : R} {S : F} (hm : fin m)
    (he : ((max 1 c : Nat) : F) * |val m - (if c = 0 then 0 else S / (c : F))| ≤ i * κ)
    (hS : |S| ≤ g * X) (h0 : c = 0 → S = 0) :
    fin (unfin c m) ∧ |val (unfin c m) - S| ≤ i * κ + 3 * (u * G) ∧ |val (unfin c m)| ≤ 3 * G := by
  have hu := hA.u_nonneg
  have hη := hA.eta_nonneg
  have hG0 : 0 ≤ G := le_trans (mul_nonneg (Nat.cast_nonneg _) hX) hE.sum_le
  have huG : 0 ≤ u * G := mul_nonneg hu hG0
  have huG' : u * G ≤ 1 / 8 * G := mul_le_mul_of_nonneg_right hE.u_le hG0
  have hM := hE.m_le
  have hη' : η ≤ u * G := by
    refine le_trans ?_ hE.under_le
    exact le_mul_of_one_le_left hη (by exact_mod_cast hg)
  have hκ0 : 0 ≤ κ := by
    rw [hE.kappa]
    have := one_le_pow_u hu W
    exact mul_nonneg (by linarith) hG0
  have hσ0 : 0 ≤ (i : F) * κ := mul_nonneg (Nat.cast_nonneg _) hκ0
  have hσ : (i : F) * κ ≤ G :=
    (mul_le_mul_of_nonneg_right (by exact_mod_cast hi) hκ0).trans hE.iters_le
  set σ := (i : F) * κ with hσdef
  have hSG := hS.trans hE.sum_le
  obtain ⟨f1, e1⟩ := unfin_near hA (hc.trans hK) hm he hSG (by linarith) h0
  have h1 : u * (G + σ) ≤ u * (2 * G) := mul_le_mul_of_nonneg_left (by linarith) hu
  have e2 : |val (unfin c m) - S| ≤ σ + 3 * (u * G) := by linarith
  refine ⟨f1, e2, ?_⟩
  calc |val (unfin c m)| = |S + (val (unfin c m) - S)| := by congr 1; ring
    _ ≤ |S| + |val (unfin c m) - S| := abs_add_le _ _
    _ ≤ G + (σ + 3 * (u * G)) := add_le_add hSG e2
    _ ≤ _ := by linarith

omit [NatCast R] [DecidableLT R] [LE R] [DecidableLE R] in
/-- A centroid after a later iteration. -/
theorem mean_later (hA : RoundsAll fin val u η M K) {G κ : F} {g W maxIters i : Nat}
    (hE : OErr u η M X G κ g W maxIters) (hX : 0 ≤ X) (hK : g ≤ K) (hi : i ≤ maxIters)
    {c' : Nat} (hc' : c' ≤ g) {z : R} {v b S S' : F} (hv : |v - S| ≤ i * κ + 3 * (u * G)) (hS' : |S'| ≤ g * X)
    (hb : b ≤ 4 * G) (hz : Near fin val u W z (S' + (v - S)) b) (h0' : c' = 0 → S' = 0) :
    fin (finz c' z) ∧
      ((max 1 c' : Nat) : F) * |val (finz c' z) - (if c' = 0 then 0 else S' / (c' : F))| ≤ (i + 1 : Nat) * κ := by
  have hu := hA.u_nonneg
  have hη := hA.eta_nonneg
  have hG0 : 0 ≤ G := le_trans (mul_nonneg (Nat.cast_nonneg _) hX) hE.sum_le
  set q := (1 + u) ^ W - 1 with hq
  have hq0 : 0 ≤ q := by have := one_le_pow_u hu W; linarith
  have hq1 : q ≤ 1 := by have := hE.pow_le; linarith
  have hqG : q * G ≤ G := mul_le_of_le_one_left hG0 hq1
  have hqG0 : 0 ≤ q * G := mul_nonneg hq0 hG0
  have huG : 0 ≤ u * G := mul_nonneg hu hG0
  have huG' : u * G ≤ 1 / 8 * G := mul_le_mul_of_nonneg_right hE.u_le hG0
  have hM := hE.m_le
  have hκ0 : 0 ≤ κ := by
    rw [hE.kappa, ← hq]
    exact mul_nonneg (by linarith) hG0
  have hσ0 : 0 ≤ (i : F) * κ := mul_nonneg (Nat.cast_nonneg _) hκ0
  have hσ : (i : F) * κ ≤ G :=
    (mul_le_mul_of_nonneg_right (by exact_mod_cast hi) hκ0).trans hE.iters_le
  set σ := (i : F) * κ with hσdef
  have hSG' := hS'.trans hE.sum_le
  have ez : |val z - (S' + (v - S))| ≤ 4 * (q * G) := by
    refine hz.err.trans ?_
    rw [← hq]
    have := mul_le_mul_of_nonneg_left hb hq0
    linarith
  have e3 : |val z - S'| ≤ σ + 3 * (u * G) + 4 * (q * G) := by
    calc |val z - S'| = |(val z - (S' + (v - S))) + (v - S)| := by congr 1; ring
      _ ≤ _ + _ := abs_add_le _ _
      _ ≤ 4 * (q * G) + (σ + 3 * (u * G)) := add_le_add ez hv
      _ = _ := by ring
  obtain ⟨f, e⟩ := finz_near hA (hc'.trans hK) hz.fin e3 hSG' (by linarith) h0'
  refine ⟨f, e.trans ?_⟩
  have h2 : u * (G + (σ + 3 * (u * G) + 4 * (q * G))) ≤ u * (7 * G) := mul_le_mul_of_nonneg_left (by linarith) hu
  have h3 : (c' : F) * η ≤ u * G :=
    (mul_le_mul_of_nonneg_right (by exact_mod_cast hc') hη).trans hE.under_le
  have hκ : ((i + 1 : Nat) : F) * κ = σ + (4 * (q * G) + 13 * (u * G)) := by
    rw [hσdef, Nat.cast_add, Nat.cast_one, hE.kappa, ← hq]; ring
  rw [hκ]
  linarith

omit [NatCast R] [DecidableLT R] [LE R] [DecidableLE R] in
/-- A centroid after the first iteration. -/
theorem mean_start (hA : RoundsAll fin val u η M K) {G κ : F} {g W maxIters : Nat}
    (hE : OErr u η M X G κ g W maxIters) (hX : 0 ≤ X) (hK : g ≤ K) {c : Nat} (hc : c ≤ g) {z : R} {S : F}
    (hz : Near fin val u W z S (g * X)) (h0 : c = 0 → S = 0) :
    fin (finz c z) ∧ ((max 1 c : Nat) : F) * |val (finz c z) - (if c = 0 then 0 else S / (c : F))| ≤ κ := by
  have hu := hA.u_nonneg
  have hG0 : 0 ≤ G := le_trans (mul_nonneg (Nat.cast_nonneg _) hX) hE.sum_le
  have hκ0 : 0 ≤ κ := by
    rw [hE.kappa]
    have := one_le_pow_u hu W
    exact mul_nonneg (by linarith) hG0
  have h := mean_later hA hE hX hK (i := 0) (Nat.zero_le _) (v := 0) (S := 0) hc (by
      have := mul_nonneg hu hG0
      simp only [sub_zero, abs_zero, Nat.cast_zero, zero_mul, zero_add]
      linarith) hz.le (b := g * X) (by have := hE.sum_le; linarith) (by simpa using hz) h0
  simpa using h

/-- What is assumed about the input. -/
structure OSizes (fin : R → Prop) (val : R → F) (X : F) (K g nt W : Nat) (data : Nat → Row R n) : Prop where
  g_pos : 0 < g
  nt_pos : 0 < nt
  g_lt : g + 8192 < 4294967296
  g_le : g ≤ K
  width : g / effThreads nt g + g % effThreads nt g + effThreads nt g ≤ W
  rows : ∀ r, r < g → InBox fin val X (data r)

/-- A state that describes a partition: sizes and means belong to the assignment, up to the error `σ`. -/
structure PCons (fin : R → Prop) (val : R → F) (B σ : F) (data : Nat → Row R n) (g : Nat) (s : PState R R k n) :
    Prop where
  wf : DistMatrix.WF k s.dm
  num : ∀ c, s.cltrs.num c = (Spec.count g (assignOf s.slots) c : Int)
  complete : ∀ c, s.cltrs.complete c = true
  box : ∀ c, InBox fin val B (s.cltrs.means c)
  assigned : ∀ r, r < g → ∃ a, (s.slots r).assign = some a
  means : ∀ c j, ((max 1 (Spec.count g (assignOf s.slots) c) : Nat) : F) *
    |val (s.cltrs.means c j) - memberMean g (fun r j => val (data r j)) (assignOf s.slots) c j| ≤ σ

omit [NatCast R] in
/-- One E-step and M-step, for any metric: the state describes a partition afterwards. -/
theorem iteration_cons (hA : RoundsAll fin val u η M K) {dist eucl : Row R n → Row R n → R} {big : R}
    {data : Nat → Row R n} {g nt W maxIters i : Nat} {sched : List Nat} {s : PState R R k n} {B G κ : F}
    (hX : 0 ≤ X) (hXB : X + maxIters * κ ≤ B) (hS : OSizes fin val X K g nt W data)
    (hE : OErr u η M X G κ g W maxIters) (hi : i < maxIters)
    (hc : Complete (effThreads nt g) (taskRows g nt) sched) (hwf : DistMatrix.WF k s.dm)
    (hg : ∀ r, r < g → ∃ s', slotStep dist big data s.view (decide (i = 0)) r (s.slots r) = .ok s' ∧
      ∃ i, s'.assign = some i)
    (hcons : i ≠ 0 → PCons fin val B (i * κ) data g s) :
    ∃ s', iteration dist eucl big data g nt (decide (i = 0)) sched s = .ok s' ∧
      (∀ r, r < g → slotStep dist big data s.view (decide (i = 0)) r (s.slots r) = .ok (s'.slots r)) ∧
      PCons fin val B ((i + 1 : Nat) * κ) data g s' ∧
      (∀ c, s'.prevDist c = eucl (s'.cltrs.means c) (if i = 0 then s.prevMeans c else s.cltrs.means c)) ∧
      (∀ c, s'.counts c = (Spec.count g (assignOf s'.slots) c : Int)) ∧
      s'.changed = s.changed + (if i = 0 then g else numChanged g (assignOf s.slots) (assignOf s'.slots)) ∧
      ∀ c j, |val (s'.cltrs.means c j) - memberMean g (fun r j => val (data r j)) (assignOf s'.slots) c j| ≤
        maxIters * κ := by
  have hu := hA.u_nonneg
  have hG0 : 0 ≤ G := le_trans (mul_nonneg (Nat.cast_nonneg _) hX) hE.sum_le
  have hκ0 : 0 ≤ κ := by
    rw [hE.kappa]
    have := one_le_pow_u hu W
    exact mul_nonneg (by linarith) hG0
  have hsum : ∀ (a : Nat → Option (Fin k)) (c : Fin k) (j : Fin n),
      |memberSum g (fun r j => val (data r j)) a c j| ≤ g * X := by
    intro a c j
    refine (Finset.abs_sum_le_sum_abs _ _).trans ((Kmeans.memberSum_abs_le hS.rows a c j).trans ?_)
    exact mul_le_mul_of_nonneg_right (by exact_mod_cast Kmeans.count_le a c) hX
  have hzero : ∀ (a : Nat → Option (Fin k)) (c : Fin k) (j : Fin n), Spec.count g a c = 0 →
      memberSum g (fun r j => val (data r j)) a c j = 0 := by
    intro a c j h
    unfold Spec.count at h
    rw [Finset.card_eq_zero] at h
    unfold memberSum
    rw [h]; simp
  have hrowsum : ∀ j, ∑ r ∈ Finset.range g, |val (data r j)| ≤ g * X := by
    intro j
    refine (Finset.sum_le_sum fun r hr => (hS.rows r (Finset.mem_range.1 hr) j).2).trans ?_
    simp
  have hgX := hE.sum_le
  have hun : i ≠ 0 → ∀ c j, _ := fun h0 c j => unfin_next hA hE hX hS.g_pos hS.g_le hi.le
    (Kmeans.count_le (N := g) (assignOf s.slots) c) (((hcons h0).box c j).1) ((hcons h0).means c j)
    (hsum (assignOf s.slots) c j) (hzero _ c j)
  have hpow : ∀ y : F, 0 ≤ y → y ≤ 4 * G → (1 + u) ^ W * y ≤ M := by
    intro y hy0 hy
    have h1 : (1 + u) ^ W * y ≤ 2 * (4 * G) :=
      mul_le_mul hE.pow_le hy hy0 (by norm_num)
    have := hE.m_le
    linarith
  obtain ⟨slots, S, z, q1, q2, q3, q4, q5, q6⟩ := iteration_sums hA (eucl := eucl) (pi := decide (i = 0)) hS.g_pos hS.nt_pos
    hS.g_lt hc hS.width (fun r hr j => (hS.rows r hr j).1) hg
    (fun h => by
      have h0 : i ≠ 0 := by simpa using h
      exact ⟨(hcons h0).assigned, (hcons h0).num, (hcons h0).complete⟩)
    (fun h c j => (hun (by simpa using h) c j).1)
    (fun c j => by
      have hr0 : 0 ≤ ∑ r ∈ Finset.range g, |val (data r j)| := Finset.sum_nonneg fun _ _ => abs_nonneg _
      have hr := hrowsum j
      by_cases h0 : i = 0
      · simp only [h0, decide_true, if_true, zero_add]
        exact hpow _ hr0 (by linarith)
      · simp only [h0, decide_false, Bool.false_eq_true, if_false]
        have := (hun h0 c j).2.2
        exact hpow _ (add_nonneg (abs_nonneg _) hr0) (by linarith))
  have hmean : ∀ c j, fin (S.means c j) ∧ ((max 1 (Spec.count g (assignOf slots) c) : Nat) : F) *
      |val (S.means c j) - memberMean g (fun r j => val (data r j)) (assignOf slots) c j| ≤ (i + 1 : Nat) * κ := by
    intro c j
    have hzc := q6 c j
    have hr := hrowsum j
    rw [q5 c j]
    by_cases h0 : i = 0
    · simp only [h0, decide_true, if_true, zero_add, add_zero] at hzc ⊢
      have := mean_start hA hE hX hS.g_le (Kmeans.count_le (N := g) (assignOf slots) c) (hzc.weaken hu hr) (hzero _ c j)
      refine ⟨this.1, ?_⟩
      rw [Nat.cast_one, one_mul]
      exact this.2
    · simp only [h0, decide_false, Bool.false_eq_true, if_false] at hzc ⊢
      obtain ⟨_, w2, w3⟩ := hun h0 c j
      exact mean_later hA hE hX hS.g_le hi.le (Kmeans.count_le (N := g) (assignOf slots) c) w2 (hsum (assignOf slots) c j)
        (by linarith) hzc (hzero _ c j)
  have hmean' : ∀ c j, |val (S.means c j) - memberMean g (fun r j => val (data r j)) (assignOf slots) c j| ≤
      maxIters * κ := by
    intro c j
    have h1 : (1 : F) ≤ ((max 1 (Spec.count g (assignOf slots) c) : Nat) : F) := by
      exact_mod_cast le_max_left _ _
    refine (le_mul_of_one_le_left (abs_nonneg _) h1).trans ((hmean c j).2.trans ?_)
    exact mul_le_mul_of_nonneg_right (by exact_mod_cast hi) hκ0
  have hboxS : ∀ c, InBox fin val B (S.means c) := by
    intro c j
    refine ⟨(hmean c j).1, ?_⟩
    have h1 := hmean' c j
    have h2 : |memberMean g (fun r j => val (data r j)) (assignOf slots) c j| ≤ X := by
      refine le_trans ?_ (memberMean_abs_le (a := assignOf slots) hX (fun r hr j => (hS.rows r hr j).2) c j)
      unfold memberMean
      split
      · simp
      · rw [abs_div, Nat.abs_cast]
        exact div_le_div_of_nonneg_right (Finset.abs_sum_le_sum_abs _ _) (Nat.cast_nonneg _)
    calc |val (S.means c j)| = |memberMean g (fun r j => val (data r j)) (assignOf slots) c j +
          (val (S.means c j) - memberMean g (fun r j => val (data r j)) (assignOf slots) c j)| := by congr 1; ring
      _ ≤ _ + _ := abs_add_le _ _
      _ ≤ X + maxIters * κ := add_le_add h2 h1
      _ ≤ B := hXB
  refine ⟨_, q2, q1, ⟨hwf, q3, q4, hboxS, fun r hr => ?_, fun c j => (hmean c j).2⟩, fun c => ?_, q3, ?_, hmean'⟩
  · obtain ⟨s', h, a, ha⟩ := hg r hr
    have := q1 r hr
    rw [h] at this
    simp only [Except.ok.injEq] at this
    exact ⟨a, by rw [this] at ha; exact ha⟩
  · by_cases h0 : i = 0 <;> simp [h0]
  · by_cases h0 : i = 0 <;> simp [h0]

/-! ### One pass of the main loop -/

/-- The distances that a state keeps: centroid movements, and upper bounds that are too small by at most `E`. -/
structure PBound (fin : R → Prop) (val : R → F) (dF : (Fin n → F) → (Fin n → F) → F) (E Dm : F)
    (data : Nat → Row R n) (g : Nat) (s : PState R R k n) : Prop where
  prev : ∀ c, fin (s.prevDist c) ∧ 0 ≤ val (s.prevDist c) ∧ val (s.prevDist c) ≤ Dm
  slots : ∀ r, r < g → ∃ a, (s.slots r).assign = some a ∧ fin (s.slots r).ub ∧ 0 ≤ val (s.slots r).ub ∧
    val (s.slots r).ub ≤ Dm ∧
    trueDist val dF data s.cltrs.means r a ≤ val (s.slots r).ub + val (s.prevDist a) + E

/-- A pass of the main loop. -/
theorem pass_near (hA : RoundsAll fin val u η M K)
    (hle : ∀ x y, fin x → fin y → (x ≤ y ↔ val x ≤ val y)) {B ε Dm G κ : F}
    {dist eucl : Row R n → Row R n → R} {big : R} {dF : (Fin n → F) → (Fin n → F) → F} {data : Nat → Row R n}
    {g nt W maxIters i : Nat} {sched : List Nat} {s : PState R R k n}
    (hk : 1 < k) (hD : MetricRounds fin val B eucl big dF ε Dm) (hDm : 2 * Dm ≤ M) (hDm0 : 0 ≤ Dm)
    (hX : 0 ≤ X) (hXB : X + maxIters * κ ≤ B) (hS : OSizes fin val X K g nt W data)
    (hE : OErr u η M X G κ g W maxIters) (hi : i < maxIters) (hi0 : i ≠ 0)
    (hc : Complete (effThreads nt g) (taskRows g nt) sched) (hcons : PCons fin val B (i * κ) data g s) :
    ∃ s', pass dist eucl big data g nt sched s = .ok s' ∧
      PCons fin val B ((i + 1 : Nat) * κ) data g s' ∧
      (∀ c, s'.counts c = (Spec.count g (assignOf s'.slots) c : Int)) ∧
      s'.changed = s.changed + numChanged g (assignOf s.slots) (assignOf s'.slots) ∧
      (∀ c j, |val (s'.cltrs.means c j) - memberMean g (fun r j => val (data r j)) (assignOf s'.slots) c j| ≤
        maxIters * κ) ∧
      ∀ E, dist = eucl → ε ≤ E → PBound fin val dF E Dm data g s →
        PBound fin val dF (E + (ε + u * (2 * Dm))) Dm data g s' ∧
        ∀ r, r < g → ∃ a, (s'.slots r).assign = some a ∧
          NearNearest 0 (E + 2 * (ε + u * (2 * Dm))) (trueDist val dF data s.cltrs.means r) a := by
  have hu := hA.u_nonneg
  have hG0 : 0 ≤ G := le_trans (mul_nonneg (Nat.cast_nonneg _) hX) hE.sum_le
  have hκ0 : 0 ≤ κ := by
    rw [hE.kappa]
    have := one_le_pow_u hu W
    exact mul_nonneg (by linarith) hG0
  have hXB' : X ≤ B := by
    have : 0 ≤ (maxIters : F) * κ := mul_nonneg (Nat.cast_nonneg _) hκ0
    linarith
  have hx : ∀ r, r < g → InBox fin val B (data r) := fun r hr j =>
    ⟨(hS.rows r hr j).1, (hS.rows r hr j).2.trans hXB'⟩
  have huD : 0 ≤ u * (2 * Dm) := by positivity
  obtain ⟨m', sv', e, w, svf, g1, g2⟩ := DistMatrix.computeDist_near (big := big) (eucl := eucl)
    (cents := s.cltrs.means) hA.lt hD.big_fin hk (fun i j => (hD.half _ _ (hcons.box i) (hcons.box j)).1) s.dm s.sval
    hcons.wf
  set s1 : PState R R k n := { s with dm := m', sval := sv' } with hs1
  have hcd : computeDm eucl big s = .ok s1 := by unfold computeDm; rw [e]
  have hget : ∀ a c : Fin k, ∃ g, s1.view.dm.get big a.val c.val = .ok g := by
    intro a c
    by_cases hac : a = c
    · subst hac; exact ⟨big, DistMatrix.get_self big _ a.val⟩
    · exact ⟨_, g1 a c hac⟩
  obtain ⟨s', q1, q2, q3, q4, q5, q6, q7⟩ := iteration_cons hA (eucl := eucl) (dist := dist) (big := big) (s := s1) hX hXB
    hS hE hi hc w
    (fun r hr => by
      obtain ⟨a, ha⟩ := hcons.assigned r hr
      rw [decide_eq_false hi0]
      exact slotStep_any hget ha)
    (fun _ => ⟨w, hcons.num, hcons.complete, hcons.box, hcons.assigned, hcons.means⟩)
  rw [decide_eq_false hi0] at q1 q2
  rw [if_neg hi0] at q6
  refine ⟨s', by unfold pass; rw [hcd]; exact q1, q3, q5, q6, q7, fun E hde hEε hb => ?_⟩
  subst hde
  have hv : ViewNear fin val B dist big Dm s1.view := ⟨hcons.box, g1, svf, g2, hb.prev⟩
  have hrow : ∀ r, r < g → ∃ a', (s'.slots r).assign = some a' ∧ fin (s'.slots r).ub ∧ 0 ≤ val (s'.slots r).ub ∧
      val (s'.slots r).ub ≤ Dm ∧
      trueDist val dF data s.cltrs.means r a' ≤ val (s'.slots r).ub + (E + u * (2 * Dm)) ∧
      ∀ c, trueDist val dF data s.cltrs.means r a' ≤ trueDist val dF data s.cltrs.means r c +
        (2 * (E + u * (2 * Dm)) + 4 * ε) := by
    intro r hr
    obtain ⟨a, h1, h2, h3, h4, h5⟩ := hb.slots r hr
    obtain ⟨t, a', k1, k2, k3, k4, k5, k6, k7⟩ := slotStep_prune_near (v := s1.view) hA.lt hle hu hA.u_le hA.add
      hDm hD (hx r hr) hv hk h1 ⟨h2, h3, h4⟩ (le_refl _) (by linarith) h5
    have := q2 r hr
    rw [show slotStep dist big data s1.view false r (s1.slots r) = .ok t from k1] at this
    simp only [Except.ok.injEq] at this
    subst this
    exact ⟨a', k2, k3, k4, k5, k6, k7⟩
  have hpd := fun c => hD.near _ _ (q3.box c) (hcons.box c)
  have hpv : ∀ c, s'.prevDist c = dist (s'.cltrs.means c) (s.cltrs.means c) := fun c => by
    rw [q4 c, if_neg hi0]
  refine ⟨⟨fun c => by rw [hpv c]; exact ⟨(hpd c).1, (hpd c).2.1, (hpd c).2.2.1⟩, fun r hr => ?_⟩, fun r hr => ?_⟩
  · obtain ⟨a, h1, h2, h3, h4, h5, _⟩ := hrow r hr
    refine ⟨a, h1, h2, h3, h4, ?_⟩
    have t1 := hD.tri (fun j => val (data r j)) (fun j => val (s.cltrs.means a j)) (fun j => val (s'.cltrs.means a j))
    have t2 := (abs_le.1 (hpd a).2.2.2).1
    rw [hD.symm] at t2
    rw [hpv a]
    unfold trueDist at h5 ⊢
    linarith
  · obtain ⟨a, h1, _, _, _, _, h6⟩ := hrow r hr
    refine ⟨a, h1, fun c => ?_⟩
    have := h6 c
    rw [sub_zero, one_mul, add_zero, one_mul]
    linarith

end Knor.Prune
