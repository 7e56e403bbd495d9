import Verif.Lemmas.MiniBatchNear
import Verif.Props.MiniBatchDriver
import Verif.Props.DistrNear
import Verif.Props.PrunedDouble

/-!
# A run of mini-batch k-means in rounded arithmetic
-/

namespace Knor.MiniBatch

open Knor Knor.Prune Knor.Par Knor.Partition Knor.Spec Knor.Kmeans Knor.Distr Knor.Driver

variable {R : Type _} {k n : Nat}

/-! ### The Frobenius norm -/

/-- The matrix as one row. -/
def flat (x : Fin k → Row R n) : Row R (k * n) := fun i => x i.divNat i.modNat

theorem foldl_flat {α : Type _} (f : α → Fin k → Fin n → α) (a : α) :
    (List.finRange (k * n)).foldl (fun s i => f s i.divNat i.modNat) a =
      (List.finRange k).foldl (fun s c => (List.finRange n).foldl (fun s j => f s c j) s) a := by
  have h1 : (List.finRange (k * n)).map (fun i => (i.divNat, i.modNat)) =
      ((List.finRange k).map fun c => (List.finRange n).map fun j => (c, j)).flatten := by
    rw [← List.ofFn_eq_map, List.ofFn_mul, ← List.ofFn_eq_map]
    congr 1
    congr 1
    funext c
    rw [← List.ofFn_eq_map]
    congr 1
    funext j
    have h := finProdFinEquiv.symm_apply_apply (c, j)
    rw [← h]
    show _ = (Fin.divNat _, Fin.modNat _)
    have e : (⟨c.val * n + j.val, by
        have := c.isLt; have := j.isLt
        calc c.val * n + j.val < c.val * n + n := by omega
          _ = (c.val + 1) * n := by ring
          _ ≤ k * n := Nat.mul_le_mul_right _ (by omega)⟩ : Fin (k * n)) = finProdFinEquiv (c, j) := by
      apply Fin.ext
      show c.val * n + j.val = j.val + n * c.val
      ring
    rw [e]
  have h2 : (List.finRange (k * n)).foldl (fun s i => f s i.divNat i.modNat) a =
      ((List.finRange (k * n)).map (fun i => (i.divNat, i.modNat))).foldl (fun s p => f s p.1 p.2) a := by
    rw [List.foldl_map]
  rw [h2, h1, List.foldl_flatten, List.foldl_map]
  congr 1
  funext s c
  rw [List.foldl_map]

theorem frobenius_flat [Zero R] [Add R] [Sub R] [Mul R] (sqrt : R → R) (x y : Fin k → Row R n) :
    frobenius sqrt (fun c j => x c j - y c j) = Dist.euclAny sqrt (flat x) (flat y) := by
  unfold Driver.frobenius Dist.euclAny flat
  rw [foldl_flat (fun s c j => s + (x c j - y c j) * (x c j - y c j))]

theorem sqDistance_flat (x y : Fin k → Fin n → ℝ) :
    sqDistance (flat x) (flat y) = ∑ c, ∑ j, (x c j - y c j) ^ 2 := by
  unfold sqDistance flat
  rw [← Fintype.sum_prod_type', ← finProdFinEquiv.symm.sum_comp]
  rfl

section Double

variable [Zero R] [One R] [Add R] [Sub R] [Mul R] [Div R] [IntCast R] [NatCast R] [LT R] [LE R]
  {fin : R → Prop} {val : R → ℝ} {sqrt abs' : R → R} {big : R}

omit [One R] in
/-- The computed move of the centroids. -/
theorem frobenius_double (hI : IeeeDouble fin val sqrt abs') (hbig : fin big ∧ val big = maxDouble)
    (hkn : k * n ≤ 4294967296) {x y : Fin k → Row R n} (hx : ∀ c, InBox fin val (2 ^ (402 : Int)) (x c))
    (hy : ∀ c, InBox fin val (2 ^ (402 : Int)) (y c)) :
    fin (frobenius sqrt fun c j => x c j - y c j) ∧ 0 ≤ val (frobenius sqrt fun c j => x c j - y c j) ∧
    |val (frobenius sqrt fun c j => x c j - y c j) - √(∑ c, ∑ j, (val (x c j) - val (y c j)) ^ 2)| ≤
      ((k * n + 4 : Nat) : ℝ) * 2 ^ (-52 : Int) * √(∑ c, ∑ j, (val (x c j) - val (y c j)) ^ 2) + 2 ^ (-520 : Int) := by
  have hfx : InBox fin val (2 ^ (402 : Int)) (flat x) := fun i => hx i.divNat i.modNat
  have hfy : InBox fin val (2 ^ (402 : Int)) (flat y) := fun i => hy i.divNat i.modNat
  obtain ⟨h1, _, h3⟩ := (distRounds_double_eucl hI hbig hkn).near (flat x) (flat y) hfx hfy
  have h4 := ((dist_double hI hbig hkn (fun _ _ => 0) (met := .eucl) (by decide)).2 _ _ hfx hfy).1
  rw [frobenius_flat]
  refine ⟨h1, h4, ?_⟩
  have e := sqDistance_flat (fun c j => val (x c j)) fun c j => val (y c j)
  rw [← e]
  exact h3

/-! ### The scan of a row -/

omit [One R] [Zero R] [Add R] [Sub R] [Mul R] [Div R] [IntCast R] [NatCast R] [LE R] in
theorem scan_own [DecidableLT R] (hlt : ∀ x y, fin x → fin y → (x < y ↔ val x < val y)) {B γ ζ : ℝ}
    {dist : Row R n → Row R n → R} {dF : (Fin n → ℝ) → (Fin n → ℝ) → ℝ} {x : Row R n} {cents : Fin k → Row R n}
    {s : Slot R k} (hR : DistRounds fin val B dist big dF γ ζ) (hx : InBox fin val B x)
    (hb : ∀ c, InBox fin val B (cents c)) (hk : 0 < k) (h : OwnSlot fin val dist big x cents s) :
    ∃ a, ((List.finRange k).foldl (initStep fun c => dist x (cents c)) (s.ub, s.assign)).2 = some a ∧
      NearNearest γ ζ (fun c => dF (fun j => val (x j)) fun j => val (cents c j)) a := by
  have hd := fun c => hR.near _ _ hx (hb c)
  have huf : fin s.ub := by
    rcases h with h | ⟨c, _, h, _⟩
    · rw [h]; exact hR.big_fin
    · exact h
  rcases init_near hlt (fun c => (hd c).1) huf s.assign (List.finRange k) with ⟨h1, h2⟩ | ⟨c, _, h1, _, h3⟩
  · rcases h with h | ⟨c, hc, _, u2⟩
    · have := h2 ⟨0, hk⟩ (List.mem_finRange _)
      rw [h] at this
      exact absurd (hd ⟨0, hk⟩).2.1 (not_lt.2 this)
    · rw [h1, hc]
      exact ⟨c, rfl, nearNearest_of_min hR hx hb fun c' => by rw [← u2]; exact h2 c' (List.mem_finRange c')⟩
  · rw [h1]
    exact ⟨c, rfl, nearNearest_of_min hR hx hb fun c' => h3 c' (List.mem_finRange c')⟩

/-! ### One iteration -/

/-- A state as the specification sees it. -/
def snapV (val : R → ℝ) (s : PState R R k n) : Snap ℝ k n :=
  ⟨fun c j => val (s.cltrs.means c j), fun r => (s.slots r).assign⟩

/-- The points between the first position `m` and the rows. -/
def hull (val : R → ℝ) (N : Nat) (data : Nat → Row R n) (m : Fin n → ℝ) : Set (Fin n → ℝ) :=
  convexHull ℝ ({m} ∪ {x | ∃ r, r < N ∧ x = fun j => val (data r j)})

/-- What holds between iterations: the centroids are within `e` of the hulls, and the rows are ready. -/
structure MbAt (fin : R → Prop) (val : R → ℝ) (dist : Row R n → Row R n → R) (big : R) (N : Nat) (data : Nat → Row R n)
    (m : Fin k → Fin n → ℝ) (e : ℝ) (s : PState R R k n) : Prop where
  finite : ∀ c j, fin (s.cltrs.means c j)
  close : ∀ c, ∃ h ∈ hull val N data (m c), ∀ j, |val (s.cltrs.means c j) - h j| ≤ e
  rows : ∀ r, r < N → OwnSlot fin val dist big (data r) s.cltrs.means (s.slots r)

omit [Zero R] [One R] [Add R] [Sub R] [Mul R] [Div R] [IntCast R] [NatCast R] [LT R] [LE R] in
theorem hull_abs {N : Nat} {data : Nat → Row R n} {m h : Fin n → ℝ} {Y : ℝ} (hm : ∀ j, |m j| ≤ Y)
    (hd : ∀ r, r < N → InBox fin val Y (data r)) (hh : h ∈ hull val N data m) (j : Fin n) : |h j| ≤ Y := by
  refine hull_bounded ?_ hh j
  rintro x (rfl | ⟨r, hr, rfl⟩) j
  · exact hm j
  · exact (hd r hr j).2

omit [Zero R] [One R] [Add R] [Sub R] [Mul R] [Div R] [IntCast R] [NatCast R] [LT R] [LE R] in
theorem MbAt.box {dist : Row R n → Row R n → R} {N : Nat} {data : Nat → Row R n} {m : Fin k → Fin n → ℝ} {e Y : ℝ}
    {s : PState R R k n} (h : MbAt fin val dist big N data m e s) (hm : ∀ c j, |m c j| ≤ Y)
    (hd : ∀ r, r < N → InBox fin val Y (data r)) (c : Fin k) : InBox fin val (Y + e) (s.cltrs.means c) := by
  intro j
  obtain ⟨x, hx, he⟩ := h.close c
  refine ⟨h.finite c j, ?_⟩
  have h1 := abs_add_le (val (s.cltrs.means c j) - x j) (x j)
  rw [sub_add_cancel] at h1
  linarith [he j, hull_abs (hm c) hd hx j]

/-- One iteration on doubles. -/
theorem iteration_double [DecidableLT R] (hI : IeeeDouble fin val sqrt abs') (h1 : fin (1 : R) ∧ val (1 : R) = 1)
    {dist : Row R n → Row R n → R} {dF : (Fin n → ℝ) → (Fin n → ℝ) → ℝ} {γ ζ B Y δ e : ℝ}
    (hR : DistRounds fin val B dist big dF γ ζ)
    {N nt : Nat} (hk : 0 < k) (hn : 0 < N) (hnt : 0 < nt) (hlt : N + 8192 < 4294967296) {data : Nat → Row R n}
    (hB1 : 2 ^ (-400 : Int) ≤ B) (hB2 : B ≤ 2 ^ (402 : Int)) (hd : ∀ r, r < N → InBox fin val Y (data r))
    (hδ : δ = 6 * 2 ^ (-52 : Int) * B) (he : Y + e + N * δ ≤ B) (he0 : 0 ≤ e)
    {draw : Nat → R} (hdraw : ∀ r, fin (draw r)) {frac : R} (hfrac : fin frac) {sched : List Nat}
    (hc : Complete (effThreads nt N) (taskRows N nt) sched) {m : Fin k → Fin n → ℝ} (hm : ∀ c j, |m c j| ≤ Y)
    {s : PState R R k n} (hs : MbAt fin val dist big N data m e s) :
    ∃ s', iteration dist big data N nt draw frac sched s = .ok s' ∧ s'.prevMeans = s.cltrs.means ∧
      MbAt fin val dist big N data m (e + N * δ) s' ∧
      NearMbStep dF γ ζ δ N (fun r j => val (data r j)) (fun r => val (draw r) ≤ val frac) (snapV val s) (snapV val s') := by
  have hδ0 : 0 ≤ δ := by
    have h2 := (p_pos (-400)).trans_le hB1
    have h3 := p_pos (-52)
    rw [hδ]; positivity
  have hNδ : 0 ≤ (N : ℝ) * δ := by positivity
  have hYB : Y ≤ B := by linarith
  have hbox := hs.box hm hd
  have hbox' : ∀ c, InBox fin val B (s.cltrs.means c) := fun c => InBox.mono (hbox c) (by linarith)
  have hd' : ∀ r, r < N → InBox fin val B (data r) := fun r hr => InBox.mono (hd r hr) hYB
  have hscan := fun r (hr : r < N) => scan_own hI.lt hR (hd' r hr) hbox' hk (hs.rows r hr)
  have hdec : ∀ r, draw r > frac ↔ ¬ val (draw r) ≤ val frac := fun r => by
    rw [gt_iff_lt, hI.lt _ _ hfrac (hdraw r), not_le]
  set a := newAssign dist data s.cltrs.means draw frac N s.slots with ha
  set l := (List.range N).filter fun r => !decide (draw r > frac) with hl
  have hsel : ∀ r, r < N → val (draw r) ≤ val frac → ∃ c, a r = some c ∧
      NearNearest γ ζ (fun c => dF (fun j => val (data r j)) fun j => val (s.cltrs.means c j)) c := by
    intro r hr hv
    obtain ⟨c, e1, e2⟩ := hscan r hr
    refine ⟨c, ?_, e2⟩
    rw [ha]
    unfold newAssign slotAny
    rw [if_pos hr, if_neg (by rw [hdec]; exact not_not.2 hv)]
    exact e1
  have hmem : ∀ r ∈ l, r < N ∧ ∃ c, a r = some c := by
    intro r hr
    rw [hl, List.mem_filter, List.mem_range] at hr
    refine ⟨hr.1, ?_⟩
    have : ¬ draw r > frac := by simpa using hr.2
    rw [hdec, not_not] at this
    obtain ⟨c, e1, _⟩ := hsel r hr.1 this
    exact ⟨c, e1⟩
  have hlen : (l.length : ℝ) ≤ N := by
    have : l.length ≤ N := (List.length_filter_le _ _).trans (by rw [List.length_range])
    exact_mod_cast this
  have hlδ := mul_le_mul_of_nonneg_right hlen hδ0
  have hmv : ∀ c, ((movers a c l).length : ℝ) * δ ≤ N * δ := fun c => by
    have : (movers a c l).length ≤ l.length := List.length_filter_le _ _
    have h2 : ((movers a c l).length : ℝ) ≤ l.length := by exact_mod_cast this
    exact (mul_le_mul_of_nonneg_right h2 hδ0).trans hlδ
  obtain ⟨cl, ef, h2⟩ := finalizeRows_double hI h1 (N := N) (by omega) (a := a) hB1 hB2 (by linarith : Y + e ≤ B)
    (fun r hr => InBox.mono (hd r hr) (by linarith)) δ hδ l hmem s.cltrs (fun c j => val (s.cltrs.means c j)) 0
    (fun c j => ⟨hs.finite c j, by rw [sub_self, abs_zero], (hbox c j).2⟩) (by linarith)
  obtain ⟨s', e1, e2, e3, e4, e5⟩ := iteration_any (big := big) hn hnt hlt hc ef
  rw [← ha] at e5
  refine ⟨s', e1, e3, ⟨fun c j => by rw [e2]; exact (h2 c j).1, fun c => ?_, fun r hr => .inl (e4 r hr)⟩, ?_⟩
  · obtain ⟨x, hx, hxe⟩ := hs.close c
    refine ⟨towards (1 / (Spec.count N a c : ℝ)) x ((movers a c l).map fun r j => val (data r j)), ?_, fun j => ?_⟩
    · by_cases h0 : movers a c l = []
      · rw [h0]; exact hx
      · have hcnt : 1 ≤ Spec.count N a c := by
          obtain ⟨r, hr⟩ := List.exists_mem_of_ne_nil _ h0
          unfold movers at hr
          rw [List.mem_filter, decide_eq_true_eq] at hr
          unfold Spec.count
          exact Finset.card_pos.2 ⟨r, Finset.mem_filter.2 ⟨Finset.mem_range.2 (hmem r hr.1).1, hr.2⟩⟩
        have hc1 : (1 : ℝ) ≤ (Spec.count N a c : ℝ) := by exact_mod_cast hcnt
        refine towards_mem (by positivity) (by rw [div_le_one (by linarith)]; exact hc1) (convex_convexHull ℝ _) _ ?_ x hx
        intro p hp
        obtain ⟨r, hr, rfl⟩ := List.mem_map.1 hp
        unfold movers at hr
        rw [List.mem_filter] at hr
        exact subset_convexHull ℝ _ (Or.inr ⟨r, (hmem r hr.1).1, rfl⟩)
    · have h3 := (h2 c j).2
      rw [sub_self, abs_zero, zero_add] at h3
      rw [e2]
      have h4 : |towards (1 / (Spec.count N a c : ℝ)) (fun j => val (s.cltrs.means c j))
          ((movers a c l).map fun r j => val (data r j)) j -
          towards (1 / (Spec.count N a c : ℝ)) x ((movers a c l).map fun r j => val (data r j)) j| ≤
          |val (s.cltrs.means c j) - x j| := by
        by_cases h0 : movers a c l = []
        · rw [h0]; exact le_rfl
        · have hcnt : 1 ≤ Spec.count N a c := by
            obtain ⟨r, hr⟩ := List.exists_mem_of_ne_nil _ h0
            unfold movers at hr
            rw [List.mem_filter, decide_eq_true_eq] at hr
            unfold Spec.count
            exact Finset.card_pos.2 ⟨r, Finset.mem_filter.2 ⟨Finset.mem_range.2 (hmem r hr.1).1, hr.2⟩⟩
          have hc1 : (1 : ℝ) ≤ (Spec.count N a c : ℝ) := by exact_mod_cast hcnt
          exact towards_close (by positivity) (by rw [div_le_one (by linarith)]; exact hc1) _ _ _ j
      have h5 := abs_sub_le (val (cl.means c j)) (towards (1 / (Spec.count N a c : ℝ)) (fun j => val (s.cltrs.means c j))
          ((movers a c l).map fun r j => val (data r j)) j)
        (towards (1 / (Spec.count N a c : ℝ)) x ((movers a c l).map fun r j => val (data r j)) j)
      linarith [hxe j, hmv c]
  · have ea : (snapV val s').assign = a := e5
    refine ⟨fun r hr hv => ?_, fun r hr hv => ?_, fun c j => ?_⟩
    · rw [ea]
      exact hsel r hr hv
    · rw [ea, ha]
      unfold newAssign slotAny
      rw [if_pos hr, if_pos (by rw [hdec]; exact hv)]
      rfl
    · have h3 := (h2 c j).2
      rw [sub_self, abs_zero, zero_add] at h3
      rw [ea]
      have hmov : ∀ i : DecidablePred fun r => val (draw r) ≤ val frac ∧ a r = some c, movers a c l =
          @List.filter Nat (fun r => @decide (val (draw r) ≤ val frac ∧ a r = some c) (i r)) (List.range N) := by
        intro i
        unfold movers
        rw [hl, List.filter_filter]
        refine List.filter_congr fun r _ => ?_
        have key : ∀ (p : Prop) (i : Decidable p), @decide p i = true ↔ p := fun p i => @decide_eq_true_iff p i
        refine Bool.eq_iff_iff.2 ⟨fun hx => ?_, fun hx => ?_⟩
        · rw [Bool.and_eq_true, decide_eq_true_iff, Bool.not_eq_true', decide_eq_false_iff_not, hdec, not_not] at hx
          exact (key _ _).2 ⟨hx.2, hx.1⟩
        · have hx' := (key _ _).1 hx
          rw [Bool.and_eq_true, decide_eq_true_iff, Bool.not_eq_true', decide_eq_false_iff_not, hdec, not_not]
          exact ⟨hx'.2, hx'.1⟩
      have h6 : (snapV val s').cents c j = val (cl.means c j) := by
        show val (s'.cltrs.means c j) = _
        rw [e2]
      rw [h6]
      rw [hmov _] at h3
      exact h3

/-! ### The loop, the end and the run -/

/-- The computed move in step `i` of a sequence of states. -/
def moveAt (sqrt : R → R) (st : Nat → PState R R k n) (i : Nat) : R :=
  Driver.frobenius sqrt fun c j => (st (i + 1)).cltrs.means c j - (st i).cltrs.means c j

/-- The iterations on doubles. -/
theorem loop_double [DecidableLT R] (hI : IeeeDouble fin val sqrt abs') (h1 : fin (1 : R) ∧ val (1 : R) = 1)
    {dist : Row R n → Row R n → R} {dF : (Fin n → ℝ) → (Fin n → ℝ) → ℝ} {γ ζ B Y δ : ℝ}
    (hR : DistRounds fin val B dist big dF γ ζ)
    {N nt : Nat} (hk : 0 < k) (hn : 0 < N) (hnt : 0 < nt) (hlt : N + 8192 < 4294967296) {data : Nat → Row R n}
    (hB1 : 2 ^ (-400 : Int) ≤ B) (hB2 : B ≤ 2 ^ (402 : Int)) (hd : ∀ r, r < N → InBox fin val Y (data r))
    (hδ : δ = 6 * 2 ^ (-52 : Int) * B)
    {draw : Nat → Nat → R} (hdraw : ∀ i r, fin (draw i r)) {frac : R} (hfrac : fin frac) {sched : Nat → List Nat}
    (hc : ∀ i, Complete (effThreads nt N) (taskRows N nt) (sched i)) {m : Fin k → Fin n → ℝ} (hm : ∀ c j, |m c j| ≤ Y)
    (tol : R) : ∀ (fuel iter : Nat) (e : ℝ), 0 ≤ e → Y + e + fuel * (N * δ) ≤ B → ∀ s : PState R R k n,
      MbAt fin val dist big N data m e s →
    ∃ (res : Nat × PState R R k n) (t : Nat) (st : Nat → PState R R k n),
      loop dist big (Driver.frobenius sqrt) data N nt draw frac tol sched fuel iter s = .ok res ∧
      t ≤ fuel ∧ st 0 = s ∧ st t = res.2 ∧
      (∀ i, i ≤ t → MbAt fin val dist big N data m (e + i * (N * δ)) (st i)) ∧
      (∀ i, i < t → NearMbStep dF γ ζ δ N (fun r j => val (data r j)) (fun r => val (draw (iter + i) r) ≤ val frac)
        (snapV val (st i)) (snapV val (st (i + 1)))) ∧
      (∀ i, i + 1 < t → ¬ moveAt sqrt st i < tol) ∧
      ((∃ j, t = j + 1 ∧ moveAt sqrt st j < tol ∧ res.1 = iter + j) ∨
        (t = fuel ∧ res.1 = iter + fuel ∧ ∀ i, i < t → ¬ moveAt sqrt st i < tol)) := by
  have hδ0 : 0 ≤ δ := by
    have h2 := (p_pos (-400)).trans_le hB1
    have h3 := p_pos (-52)
    rw [hδ]; positivity
  have hNδ : 0 ≤ (N : ℝ) * δ := by positivity
  intro fuel
  induction fuel with
  | zero =>
    intro iter e _ _ s hs
    refine ⟨(iter, s), 0, fun _ => s, rfl, le_rfl, rfl, rfl, fun i hi => ?_, fun i hi => absurd hi (by omega),
      fun i hi => absurd hi (by omega), .inr ⟨rfl, rfl, fun i hi => absurd hi (by omega)⟩⟩
    obtain rfl : i = 0 := by omega
    rw [Nat.cast_zero, zero_mul, add_zero]
    exact hs
  | succ fuel ih =>
    intro iter e he0 he s hs
    have hf : 0 ≤ (fuel : ℝ) * (N * δ) := by positivity
    rw [Nat.cast_succ, add_mul, one_mul] at he
    obtain ⟨s1, e1, e2, e3, e4⟩ := iteration_double hI h1 hR hk hn hnt hlt hB1 hB2 hd hδ (by linarith) he0 (hdraw iter)
      hfrac (hc iter) hm hs
    have ez : ∀ s : PState R R k n, MbAt fin val dist big N data m e s →
        MbAt fin val dist big N data m (e + ((0 : Nat) : ℝ) * (N * δ)) s := fun s h => by
      rw [Nat.cast_zero, zero_mul, add_zero]; exact h
    unfold loop
    rw [e1]
    dsimp only
    rw [e2]
    by_cases hmv : Driver.frobenius sqrt (fun c j => s1.cltrs.means c j - s.cltrs.means c j) < tol
    · rw [if_pos hmv]
      refine ⟨(iter, s1), 1, fun i => if i = 0 then s else s1, rfl, by omega, rfl, rfl, fun i hi => ?_, fun i hi => ?_,
        fun i hi => absurd hi (by omega), .inl ⟨0, rfl, hmv, rfl⟩⟩
      · have : i = 0 ∨ i = 1 := by omega
        rcases this with rfl | rfl
        · exact ez _ hs
        · rw [Nat.cast_one, one_mul]
          exact e3
      · obtain rfl : i = 0 := by omega
        exact e4
    · rw [if_neg hmv]
      obtain ⟨res, t, st, q1, q2, q3, q4, q5, q6, q7, q8⟩ := ih (iter + 1) (e + N * δ) (by linarith) (by linarith) s1 e3
      have hm0 : ¬ Driver.frobenius sqrt (fun c j => (st 0).cltrs.means c j - s.cltrs.means c j) < tol := by
        rw [q3]; exact hmv
      refine ⟨res, t + 1, fun i => match i with | 0 => s | i + 1 => st i, q1, by omega, rfl, q4, ?_, ?_, ?_, ?_⟩
      · intro i hi
        cases i with
        | zero => exact ez _ hs
        | succ i =>
          have := q5 i (by omega)
          rw [Nat.cast_succ, add_mul, one_mul, add_comm ((i : ℝ) * (N * δ)), ← add_assoc]
          exact this
      · intro i hi
        cases i with
        | zero => dsimp only; rw [q3]; exact e4
        | succ i =>
          have := q6 i (by omega)
          rw [show iter + 1 + i = iter + (i + 1) by omega] at this
          exact this
      · intro i hi
        cases i with
        | zero => exact hm0
        | succ i => exact q7 i (by omega)
      · rcases q8 with ⟨j, w1, w2, w3⟩ | ⟨w1, w2, w3⟩
        · exact .inl ⟨j + 1, by omega, w2, by omega⟩
        · refine .inr ⟨by omega, by omega, fun i hi => ?_⟩
          cases i with
          | zero => exact hm0
          | succ i => exact w3 i (by omega)

omit [Mul R] [Div R] [IntCast R] [NatCast R] [One R] in
/-- The final assignment. -/
theorem finish_double [DecidableLT R] [DecidableLE R] (hlt' : ∀ x y, fin x → fin y → (x < y ↔ val x < val y))
    {dist : Row R n → Row R n → R} {dF : (Fin n → ℝ) → (Fin n → ℝ) → ℝ} {γ ζ B : ℝ}
    (hR : DistRounds fin val B dist big dF γ ζ)
    {N nt : Nat} (hk : 0 < k) (hn : 0 < N) (hnt : 0 < nt) (hlt : N + 8192 < 4294967296) {data : Nat → Row R n}
    (hd : ∀ r, r < N → InBox fin val B (data r)) {sched : List Nat}
    (hc : Complete (effThreads nt N) (taskRows N nt) sched) {s : PState R R k n}
    (hb : ∀ c, InBox fin val B (s.cltrs.means c))
    (hs : ∀ r, r < N → OwnSlot fin val dist big (data r) s.cltrs.means (s.slots r)) :
    ∃ s', finish dist big data N nt sched s = .ok s' ∧ s'.cltrs = s.cltrs ∧
      (∀ c, s'.counts c = (Spec.count N (fun r => (s'.slots r).assign) c : Int)) ∧
      (∑ c, s'.counts c = (N : Int)) ∧
      ∀ r, r < N → ∃ c, (s'.slots r).assign = some c ∧
        NearNearest γ ζ (fun c => dF (fun j => val (data r j)) fun j => val (s.cltrs.means c j)) c := by
  have hrow := fun r (hr : r < N) => slotStep_first (data := data) (r := r) (v := s.view) hlt' hR (hd r hr) hb hk (hs r hr)
  obtain ⟨p, h1, h2, _, _⟩ := Par.run_det (f := emRow dist big data s.view true)
    (g := slotStep dist big data s.view true) (h := accStep data true)
    (fun r m a => by
      rw [emRow_eq]; cases slotStep dist big data s.view true r m <;> rfl)
    (s0 := { mem := s.slots, acc := fun _ => Kmeans.Acc.init, todo := taskRows N nt })
    (split_taskRows hn hnt hlt) hc (fun r hr => by
      obtain ⟨s', h, _⟩ := hrow r hr
      exact ⟨s', h⟩)
  have hnear : ∀ r, r < N → ∃ c, (p.mem r).assign = some c ∧
      NearNearest γ ζ (fun c => dF (fun j => val (data r j)) fun j => val (s.cltrs.means c j)) c := by
    intro r hr
    obtain ⟨s', h, c, ha, hne⟩ := hrow r hr
    have := h2 r hr
    rw [h] at this
    simp only [Except.ok.injEq] at this
    rw [← this]
    exact ⟨c, ha, hne⟩
  have hsome : ∀ r, r < N → ∃ c, (p.mem r).assign = some c := fun r hr => by
    obtain ⟨c, h, _⟩ := hnear r hr
    exact ⟨c, h⟩
  have hcnt : ∀ c, ((tally N (fun r => (p.mem r).assign) c : Nat) : Int) =
      (Spec.count N (fun r => (p.mem r).assign) c : Int) := fun c => by rw [tally_eq]
  unfold finish
  rw [h1]
  simp only
  rw [if_pos (by
    rw [List.all_eq_true]
    intro r hr
    obtain ⟨c, hc⟩ := hsome r (List.mem_range.1 hr)
    rw [hc]; rfl)]
  refine ⟨_, rfl, rfl, hcnt, ?_, hnear⟩
  have := Kmeans.sum_count_of_all_assigned N (fun r => (p.mem r).assign) hsome
  show ∑ c, ((tally N (fun r => (p.mem r).assign) c : Nat) : Int) = (N : Int)
  rw [Finset.sum_congr rfl fun c _ => hcnt c, ← Nat.cast_sum, this]

omit [Zero R] [One R] [Add R] [Sub R] [Mul R] [Div R] [IntCast R] [NatCast R] [LT R] [LE R] in
theorem nearStep_data {dist : (Fin n → ℝ) → (Fin n → ℝ) → ℝ} {γ ζ δ : ℝ} {N : Nat} {data data' : Nat → Fin n → ℝ}
    (hd : ∀ r, r < N → data r = data' r) {p : Nat → Prop} {s s' : Snap ℝ k n}
    (h : NearMbStep dist γ ζ δ N data p s s') : NearMbStep dist γ ζ δ N data' p s s' := by
  refine ⟨fun r hr hp => ?_, h.others, fun c j => ?_⟩
  · rw [← hd r hr]
    exact h.assigned r hr hp
  · have := h.moved c j
    rwa [map_filter_congr (g := data') (fun _ _ => rfl) fun r hr => hd r (List.mem_range.1 hr)] at this

omit [LE R] [One R] [Sub R] [Mul R] [IntCast R] [LT R] [Zero R] [Add R] in
/-- The fraction of rows to sample. -/
theorem perctg_double {sqrt abs' : R → R} [Zero R] [Add R] [Sub R] [Mul R] [IntCast R] [LT R] [LE R]
    (hI : IeeeDouble fin val sqrt abs') {mb T N : Nat} (hn : 0 < N)
    (hN : N ≤ 2 ^ 53) (hmb : mb ≤ 2 ^ 53) :
    fin (perctg mb T N : R) ∧
      NearestDouble (((if mb < T then 1 else mb : Nat) : ℝ) / (N : ℝ)) (val (perctg mb T N : R)) := by
  have hm : (if mb < T then 1 else mb) ≤ 2 ^ 53 := by split_ifs <;> omega
  unfold perctg
  generalize (if mb < T then 1 else mb) = q at *
  have hd := nat_isDouble hm
  have hd' := nat_isDouble hN
  obtain ⟨f, e⟩ := hI.nat q (isDouble_le hd)
  obtain ⟨f', e'⟩ := hI.nat N (isDouble_le hd')
  have ev := nearest_of_double e hd
  have ev' := nearest_of_double e' hd'
  have h1 : (1 : ℝ) ≤ N := by exact_mod_cast hn
  have h0 : (0 : ℝ) < N := by linarith
  have hq : (0 : ℝ) ≤ q := Nat.cast_nonneg _
  have hM : |val (q : R) / val (N : R)| ≤ maxDouble := by
    rw [ev, ev', abs_of_nonneg (by positivity)]
    refine le_trans ?_ (isDouble_le hd)
    rw [abs_of_nonneg hq]
    exact div_le_self hq h1
  obtain ⟨g, e2⟩ := hI.div _ _ f f' (by rw [ev']; exact h0.ne') hM
  rw [ev, ev'] at e2
  exact ⟨g, e2⟩

/-- The run on doubles, from a state that an initialisation leaves. -/
theorem run_double [DecidableLT R] [DecidableLE R] (hI : IeeeDouble fin val sqrt abs')
    (h1 : fin (1 : R) ∧ val (1 : R) = 1)
    (hbig : fin big ∧ val big = maxDouble) (cosd : Row R n → Row R n → R) {met : Dist.Metric} (hcos : met ≠ .cos)
    {data data' : Nat → Row R n} {N nt : Nat} (hdata : ∀ r, r < N → data r = data' r)
    (hk : 0 < k) (hn : 0 < N) (hnt : 0 < nt) (hlt : N + 8192 < 4294967296) (hcol : n ≤ 4294967296)
    (hkn : k * n ≤ 4294967296) {X Y : ℝ} (hX1 : 2 ^ (-400 : Int) ≤ X) (hX2 : X ≤ 2 ^ (368 : Int))
    (hXY : X ≤ Y) (hY : Y ≤ 5 / 4 * X)
    (hrows : ∀ r, r < N → InBox fin val X (data' r)) {mb : Nat} (hmb : mb < 4294967296)
    {draw : Nat → Nat → R} (hdraw : ∀ i r, fin (draw i r)) (tol : R) {maxIters : Nat}
    (hit : 24 * (maxIters * N) ≤ 2 ^ 52)
    {sched : Nat → List Nat} (hc : ∀ i, Complete (effThreads nt N) (taskRows N nt) (sched i)) {schedEnd : List Nat}
    (hce : Complete (effThreads nt N) (taskRows N nt) schedEnd) (δ : ℝ) (hδ : δ = 12 * 2 ^ (-52 : Int) * X)
    {s : PState R R k n} (hbox : ∀ c, InBox fin val Y (s.cltrs.means c))
    (hrow : ∀ r, r < N → OwnSlot fin val (anyDist sqrt abs' cosd met) big (data r) s.cltrs.means (s.slots r)) :
    ∃ (res : Nat × PState R R k n) (t : Nat) (tr : Nat → Snap ℝ k n) (f : ℝ) (moves : Nat → R),
      run (anyDist sqrt abs' cosd met) big (Driver.frobenius sqrt) data N nt mb draw tol maxIters sched schedEnd s
        = .ok res ∧ tr 0 = snapV val s ∧
      NearestDouble (((if mb < effThreads nt N then 1 else mb : Nat) : ℝ) / (N : ℝ)) f ∧
      (∀ i, i < t → NearMbStep (metricDist met) (((n + 4 : Nat) : ℝ) * 2 ^ (-52 : Int)) (metricSlack met) δ N
        (fun r j => val (data' r j)) (fun r => val (draw i r) ≤ f) (tr i) (tr (i + 1))) ∧
      (∀ i, i < t → fin (moves i) ∧ 0 ≤ val (moves i) ∧ |val (moves i) - movedFrobenius tr i| ≤
        ((k * n + 4 : Nat) : ℝ) * 2 ^ (-52 : Int) * movedFrobenius tr i + 2 ^ (-520 : Int)) ∧
      (∀ i, i + 1 < t → ¬ moves i < tol) ∧
      ((∃ j, t = j + 1 ∧ j < maxIters ∧ moves j < tol ∧ res.1 = j) ∨
        (t = maxIters ∧ res.1 = maxIters ∧ ∀ i, i < t → ¬ moves i < tol)) ∧
      (∀ c j, fin (res.2.cltrs.means c j) ∧ val (res.2.cltrs.means c j) = (tr t).cents c j) ∧
      (∀ c, ∃ x ∈ convexHull ℝ ({(tr 0).cents c} ∪ {x | ∃ r, r < N ∧ x = fun j => val (data' r j)}),
        ∀ j, |val (res.2.cltrs.means c j) - x j| ≤ t * (N * δ)) ∧
      (∀ r, r < N → ∃ c, (res.2.slots r).assign = some c ∧
        NearNearest (((n + 4 : Nat) : ℝ) * 2 ^ (-52 : Int)) (metricSlack met)
          (fun c => metricDist met (fun j => val (data' r j)) fun j => val (res.2.cltrs.means c j)) c) ∧
      (∀ c, res.2.counts c = (Spec.count N (fun r => (res.2.slots r).assign) c : Int)) ∧
      ∑ c, res.2.counts c = (N : Int) := by
  have hX0 : 0 < X := (p_pos _).trans_le hX1
  have hB1 : 2 ^ (-400 : Int) ≤ 2 * X := by linarith
  have hB2 : 2 * X ≤ 2 ^ (402 : Int) := by
    have e : (2 : ℝ) * 2 ^ (368 : Int) = 2 ^ (369 : Int) := by
      rw [show (369 : Int) = 1 + 368 by norm_num, zpow_add₀ (by norm_num) 1, zpow_one]
    exact ((mul_le_mul_of_nonneg_left hX2 (by norm_num)).trans e.le).trans (p_le (by norm_num))
  have hδ' : δ = 6 * 2 ^ (-52 : Int) * (2 * X) := by rw [hδ]; ring
  have hbud : (maxIters : ℝ) * (N * δ) ≤ X / 2 := by
    have w1 : ((24 * (maxIters * N) : Nat) : ℝ) ≤ ((2 ^ 52 : Nat) : ℝ) := by exact_mod_cast hit
    have w2 := mul_le_mul_of_nonneg_right w1 (p_pos (-52)).le
    have w3 : ((2 ^ 52 : Nat) : ℝ) * 2 ^ (-52 : Int) = 1 := by norm_num
    rw [w3] at w2
    have w4 := mul_le_mul_of_nonneg_right w2 hX0.le
    rw [hδ]
    push_cast at w4
    generalize (2 : ℝ) ^ (-52 : Int) = w at *
    nlinarith only [w4]
  have hR0 := (dist_double hI hbig hcol cosd hcos).1
  have hR : DistRounds (n := n) fin val (2 * X) (anyDist sqrt abs' cosd met) big (metricDist met)
      ((n + 4 : Nat) * 2 ^ (-52 : Int)) (metricSlack met) :=
    { hR0 with near := fun x y hx hy => hR0.near x y (InBox.mono hx hB2) (InBox.mono hy hB2) }
  have hrows' : ∀ r, r < N → InBox fin val Y (data r) := fun r hr => by
    rw [hdata r hr]; exact InBox.mono (hrows r hr) hXY
  obtain ⟨hpf, hpn⟩ := perctg_double (T := effThreads nt N) hI hn (by omega) (show mb ≤ 2 ^ 53 by omega)
  obtain ⟨⟨iters, sl⟩, t, st, q1, q2, q3, q4, q5, q6, q7, q8⟩ := loop_double hI h1 hR hk hn hnt hlt hB1 hB2 hrows' hδ'
    hdraw hpf hc (m := fun c j => val (s.cltrs.means c j)) (fun c j => (hbox c j).2) tol maxIters 0 0 le_rfl
    (by linarith) s
    ⟨fun c j => (hbox c j).1, fun c => ⟨_, subset_convexHull ℝ _ (Or.inl rfl), fun j => by
      rw [sub_self, abs_zero]⟩, hrow⟩
  have hδ0 : 0 ≤ δ := by
    have h3 := p_pos (-52)
    rw [hδ]; positivity
  have hNδ : 0 ≤ (N : ℝ) * δ := by positivity
  have hst : ∀ i, i ≤ t → ∀ c, InBox fin val (2 * X) ((st i).cltrs.means c) := fun i hi c => by
    refine InBox.mono ((q5 i hi).box (fun c j => (hbox c j).2) hrows' c) ?_
    have : (i : ℝ) ≤ maxIters := by exact_mod_cast hi.trans q2
    have := mul_le_mul_of_nonneg_right this hNδ
    linarith
  have hst' : ∀ i, i ≤ t → ∀ c, InBox fin val (2 ^ (402 : Int)) ((st i).cltrs.means c) := fun i hi c =>
    InBox.mono (hst i hi c) hB2
  have q4' : st t = sl := q4
  have hat := q5 t le_rfl
  rw [q4'] at hat
  obtain ⟨s', f1, f2, f3, f4, f5⟩ := finish_double hI.lt hR hk hn hnt hlt
    (fun r hr => InBox.mono (hrows' r hr) (by linarith)) hce (fun c => by have := hst t le_rfl c; rwa [q4'] at this) hat.rows
  have hset : {x : Fin n → ℝ | ∃ r, r < N ∧ x = fun j => val (data r j)} = {x | ∃ r, r < N ∧ x = fun j => val (data' r j)} := by
    ext x
    exact ⟨fun ⟨r, hr, e⟩ => ⟨r, hr, by rw [← hdata r hr]; exact e⟩, fun ⟨r, hr, e⟩ => ⟨r, hr, by rw [hdata r hr]; exact e⟩⟩
  refine ⟨(iters, s'), t, fun i => snapV val (st i), val (perctg mb (effThreads nt N) N : R), moveAt sqrt st, ?_, ?_, hpn,
    ?_, ?_, q7, ?_, ?_, ?_, ?_, f3, f4⟩
  · unfold run
    rw [q1]
    simp only [f1]
  · dsimp only
    rw [q3]
  · intro i hi
    have := q6 i hi
    rw [Nat.zero_add] at this
    exact nearStep_data (fun r hr => by rw [hdata r hr]) this
  · intro i hi
    exact frobenius_double hI hbig hkn (hst' (i + 1) (by omega)) (hst' i (by omega))
  · rcases q8 with ⟨j, e1, e2, e3⟩ | ⟨e1, e2, e3⟩
    · exact .inl ⟨j, e1, by omega, e2, by rw [Nat.zero_add] at e3; exact e3⟩
    · exact .inr ⟨e1, by rw [Nat.zero_add] at e2; exact e2, e3⟩
  · intro c j
    dsimp only
    rw [f2, q4']
    exact ⟨hat.finite c j, rfl⟩
  · intro c
    obtain ⟨x, hx, he⟩ := hat.close c
    dsimp only
    rw [f2, q3, ← hset]
    refine ⟨x, hx, fun j => ?_⟩
    have := he j
    rwa [zero_add] at this
  · intro r hr
    obtain ⟨c, e1, e2⟩ := f5 r hr
    dsimp only
    rw [f2, ← hdata r hr]
    exact ⟨c, e1, e2⟩

end Double

end Knor.MiniBatch
