import Verif.Lemmas.PruneCall
import Verif.Spec.NearPruned

/-!
# The run of pruned k-means in one process, in rounded arithmetic
-/

namespace Knor.Prune

open Knor Knor.Par Knor.Partition Knor.Spec Knor.Distr

variable {R F : Type _} {k n : Nat} [Zero R] [Add R] [Sub R] [Mul R] [Div R] [IntCast R] [NatCast R]
  [LT R] [DecidableLT R] [LE R] [DecidableLE R] [Field F] [LinearOrder F]
  [IsStrictOrderedRing F] {fin : R → Prop} {val : R → F} {u η M X : F} {K : Nat}

/-- The slot of a row before the first pass: no bound yet, or the computed distance to its own centroid. -/
def OwnSlot (fin : R → Prop) (val : R → F) (dist : Row R n → Row R n → R) (big : R) (x : Row R n)
    (cents : Fin k → Row R n) (s : Slot R k) : Prop :=
  s.ub = big ∨ ∃ c, s.assign = some c ∧ fin s.ub ∧ val s.ub = val (dist x (cents c))

omit [Zero R] [Sub R] [Mul R] [Div R] [IntCast R] [NatCast R] in
/-- The first pass over a row, for any metric: the row is with a nearest centroid, up to the error of a distance. -/
theorem slotStep_first (hlt : ∀ x y, fin x → fin y → (x < y ↔ val x < val y)) {B γ ζ : F}
    {dist : Row R n → Row R n → R} {big : R} {dF : (Fin n → F) → (Fin n → F) → F} {data : Nat → Row R n}
    {v : View R R k n} {r : Nat} {s : Slot R k}
    (hR : DistRounds fin val B dist big dF γ ζ) (hx : InBox fin val B (data r))
    (hb : ∀ c, InBox fin val B (v.cents c)) (hk : 0 < k) (h : OwnSlot fin val dist big (data r) v.cents s) :
    ∃ s', slotStep dist big data v true r s = .ok s' ∧ ∃ a, s'.assign = some a ∧
      NearNearest γ ζ (trueDist val dF data v.cents r) a := by
  have hd := fun c => hR.near _ _ hx (hb c)
  have huf : fin s.ub := by
    rcases h with h | ⟨c, _, h, _⟩
    · rw [h]; exact hR.big_fin
    · exact h
  have hnear : ∀ a, (∀ c, val (dist (data r) (v.cents a)) ≤ val (dist (data r) (v.cents c))) →
      NearNearest γ ζ (trueDist val dF data v.cents r) a := by
    intro a ha c
    have h1 := (abs_le.1 (hd a).2.2).1
    have h2 := (abs_le.1 (hd c).2.2).2
    have h3 := ha c
    unfold trueDist
    linarith
  unfold slotStep
  simp only [if_true]
  rcases init_near hlt (fun c => (hd c).1) huf s.assign (List.finRange k) with ⟨h1, h2⟩ | ⟨c, _, h1, _, h3⟩
  · rcases h with h | ⟨c, hc, _, u2⟩
    · have := h2 ⟨0, hk⟩ (List.mem_finRange _)
      rw [h] at this
      exact absurd (hd ⟨0, hk⟩).2.1 (not_lt.2 this)
    · rw [h1, hc]
      exact ⟨_, rfl, c, rfl, hnear c fun c' => by rw [← u2]; exact h2 c' (List.mem_finRange c')⟩
  · rw [h1]
    exact ⟨_, rfl, c, rfl, hnear c fun c' => h3 c' (List.mem_finRange c')⟩

/-- What the user is owed after at least one iteration. -/
def NearDone (fin : R → Prop) (val : R → F) (dF : (Fin n → F) → (Fin n → F) → F) (ζ err : F) (N : Nat)
    (data : Nat → Row R n) (cents0 : Fin k → Row R n) (tol : R) (maxIters : Nat) (Q : Nat → Fin k → Prop) (Eu : Prop)
    (res : Result R R k n) : Prop :=
  NearPartition fin val err N data (fun r => (res.state.slots r).assign) res.state.counts res.state.cltrs.means ∧
  1 < res.iters ∧
  (maxIters = 1 → ∀ r, r < N → ∃ c, (res.state.slots r).assign = some c ∧ Q r c) ∧
  (Eu → NearPrunedResult fin val dF ζ err N data cents0 tol maxIters res.iters (fun r => (res.state.slots r).assign)
    res.state.counts res.state.cltrs.means)

/-- A state after `i` iterations; `ch` rows changed in the last one. -/
structure NearAt (fin : R → Prop) (val : R → F) (dF : (Fin n → F) → (Fin n → F) → F) (B κ θ Dm : F) (N : Nat)
    (data : Nat → Row R n) (cents0 : Fin k → Row R n) (tol : R) (maxIters : Nat) (Q : Nat → Fin k → Prop) (Eu : Prop)
    (i ch : Nat) (s : PState R R k n) : Prop where
  cons : PCons fin val B (i * κ) data N s
  counts : ∀ c, s.counts c = (Spec.count N (assignOf s.slots) c : Int)
  means : ∀ c j, |val (s.cltrs.means c j) - memberMean N (fun r j => val (data r j)) (assignOf s.slots) c j| ≤
    maxIters * κ
  rows : i = 1 → ∀ r, r < N → ∃ c, (s.slots r).assign = some c ∧ Q r c
  trace : Eu → PBound fin val dF (((i + 1 : Nat) : F) * θ) Dm data N s ∧ ∃ tr : Nat → Snap F k n,
    NearLloydRun dF 0 (((maxIters + 2 : Nat) : F) * θ) 0 (maxIters * κ) N (fun r j => val (data r j))
      (fun c j => val (cents0 c j)) i tr ∧
    (tr i).cents = (fun c j => val (s.cltrs.means c j)) ∧ (∀ r, r < N → (s.slots r).assign = (tr i).assign r) ∧
    (2 ≤ i → ch = numChanged N (tr (i - 1)).assign (tr i).assign) ∧
    ∀ j, 2 ≤ j → j < i → Kmeans.convTest N tol (numChanged N (tr (j - 1)).assign (tr j).assign) = false

omit [Zero R] [Add R] [Sub R] [Mul R] [IntCast R] [LT R] [DecidableLT R] [IsStrictOrderedRing F] in
/-- The state that is returned. -/
theorem NearAt.done {dF : (Fin n → F) → (Fin n → F) → F} {B κ θ Dm : F} {N : Nat} {data : Nat → Row R n}
    {cents0 : Fin k → Row R n} {tol : R} {maxIters : Nat} {Q : Nat → Fin k → Prop} {Eu : Prop} {i ch : Nat}
    {s : PState R R k n} (h : NearAt fin val dF B κ θ Dm N data cents0 tol maxIters Q Eu i ch s) (hi : 1 ≤ i)
    (him : i ≤ maxIters) {iters : Nat} {cv : Bool}
    (hst : 2 ≤ i ∧ Kmeans.convTest N tol ch = true ∧ iters = i ∨
      (2 ≤ i → Kmeans.convTest N tol ch = false) ∧ i = maxIters ∧ iters = maxIters + 1) :
    NearDone fin val dF (((maxIters + 2 : Nat) : F) * θ) (maxIters * κ) N data cents0 tol maxIters Q Eu
      ⟨iters, cv, s⟩ := by
  have hconv : ∀ ch : Nat, Kmeans.convTest N tol ch = true ↔ (ch = 0 ∨ (ch : R) / (N : R) ≤ tol) := by
    intro ch; unfold Kmeans.convTest; simp
  refine ⟨⟨h.cons.assigned, h.counts, fun c j => ⟨(h.cons.box c j).1, h.means c j⟩⟩, ?_, fun h1 => ?_, fun he => ?_⟩
  · dsimp only; rcases hst with ⟨a, _, b⟩ | ⟨_, a, b⟩ <;> omega
  · exact h.rows (by omega)
  · obtain ⟨_, tr, t1, t2, t3, t4, t5⟩ := h.trace he
    refine ⟨i, tr, hi, him, t1, fun j a b hs => ?_, ?_, t3, fun c => h.counts c, fun c j => ?_⟩
    · have := t5 j a b
      rw [(hconv _).2 hs] at this
      simp at this
    · rcases hst with ⟨a, b, c⟩ | ⟨a, b, c⟩
      · rw [t4 a, hconv] at b
        exact Or.inl ⟨a, b, c⟩
      · refine Or.inr ⟨fun h2 hs => ?_, b, c⟩
        have := a h2
        rw [t4 h2, (hconv _).2 hs] at this
        simp at this
    · rw [t2]
      exact ⟨(h.cons.box c j).1, rfl⟩

omit [Zero R] [Add R] [Sub R] [Mul R] [Div R] [IntCast R] [NatCast R] [LT R] [DecidableLT R] [LE R] [DecidableLE R]
  [IsStrictOrderedRing F] in
/-- One more iteration of the trace. -/
theorem run_snoc {dF : (Fin n → F) → (Fin n → F) → F} {ζ err : F} {N : Nat} {data : Nat → Row R n}
    {cents0 : Fin k → Row R n} {i : Nat} {tr : Nat → Snap F k n} {s : PState R R k n} {old : Fin k → Row R n}
    (htr : NearLloydRun dF 0 ζ 0 err N (fun r j => val (data r j)) (fun c j => val (cents0 c j)) i tr)
    (hm : (tr i).cents = fun c j => val (old c j))
    (hnear : ∀ r, r < N → ∃ a, (s.slots r).assign = some a ∧ NearNearest 0 ζ (trueDist val dF data old r) a)
    (hmean : ∀ c j, |val (s.cltrs.means c j) - memberMean N (fun r j => val (data r j)) (assignOf s.slots) c j| ≤ err) :
    NearLloydRun dF 0 ζ 0 err N (fun r j => val (data r j)) (fun c j => val (cents0 c j)) (i + 1)
      (Function.update tr (i + 1) ⟨fun c j => val (s.cltrs.means c j), assignOf s.slots⟩) := by
  refine ⟨?_, ?_, ?_⟩
  · rw [Function.update_of_ne (by omega)]; exact htr.cents
  · rw [Function.update_of_ne (by omega)]; exact htr.unassigned
  · intro j hj
    rw [Function.update_of_ne (show j ≠ i + 1 by omega)]
    by_cases hji : j = i
    · subst hji
      rw [Function.update_self]
      refine ⟨fun r hr => ?_, fun c j => ?_⟩
      · obtain ⟨a, h1, h2⟩ := hnear r hr
        refine ⟨a, h1, ?_⟩
        rw [hm]; exact h2
      · simp only
        rw [zero_mul, zero_add]
        exact hmean c j
    · rw [Function.update_of_ne (show j + 1 ≠ i + 1 by omega)]
      exact htr.step j (by omega)

theorem nearNearest_mono {ζ ζ' : F} (h : ζ ≤ ζ') {d : Fin k → F} {c : Fin k} (hc : NearNearest 0 ζ d c) :
    NearNearest 0 ζ' d c := fun c' => (hc c').trans (by linarith)

/-- The main loop. -/
theorem loop_near (hA : RoundsAll fin val u η M K)
    (hle : ∀ x y, fin x → fin y → (x ≤ y ↔ val x ≤ val y)) {B ε Dm G κ : F}
    {dist eucl : Row R n → Row R n → R} {big : R} {dF : (Fin n → F) → (Fin n → F) → F} {data : Nat → Row R n}
    {N nt W maxIters : Nat} {tol : R} {sched : Nat → List Nat} {cents0 : Fin k → Row R n}
    {Q : Nat → Fin k → Prop} {Eu : Prop} (hEu : Eu → dist = eucl)
    (hk : 1 < k) (hD : MetricRounds fin val B eucl big dF ε Dm) (hDm : 2 * Dm ≤ M) (hDm0 : 0 ≤ Dm) (hε : 0 ≤ ε)
    (hX : 0 ≤ X) (hXB : X + maxIters * κ ≤ B) (hS : OSizes fin val X K N nt W data)
    (hE : OErr u η M X G κ N W maxIters)
    (hc : ∀ i, Complete (effThreads nt N) (taskRows N nt) (sched i)) (fuel : Nat) :
    ∀ i ch (s : PState R R k n), 1 ≤ i → i ≤ maxIters → maxIters ≤ i + fuel → s.changed = 0 →
    NearAt fin val dF B κ (ε + u * (2 * Dm)) Dm N data cents0 tol maxIters Q Eu i ch s →
    (2 ≤ i → Kmeans.convTest N tol ch = false) →
    ∃ res, loop dist eucl big data N nt tol maxIters sched fuel (i + 1) s = .ok res ∧
      NearDone fin val dF (((maxIters + 2 : Nat) : F) * (ε + u * (2 * Dm))) (maxIters * κ) N data cents0 tol maxIters
        Q Eu res := by
  have hθ : 0 ≤ ε + u * (2 * Dm) := by have := hA.u_nonneg; positivity
  have hεθ : ε ≤ ε + u * (2 * Dm) := by
    have : 0 ≤ u * (2 * Dm) := by have := hA.u_nonneg; positivity
    linarith
  induction fuel with
  | zero =>
    intro i ch s h1 h2 h3 h0 hat hns
    obtain rfl : i = maxIters := by omega
    exact ⟨_, rfl, hat.done h1 h2 (.inr ⟨hns, rfl, rfl⟩)⟩
  | succ fuel ih =>
    intro i ch s h1 h2 h3 h0 hat hns
    unfold loop
    by_cases hgo : i + 1 ≤ maxIters
    · rw [if_pos ⟨hgo, by omega⟩]
      obtain ⟨s2, e, q1, q2, q3, q4, q5⟩ := pass_near hA hle (dist := dist) hk hD hDm hDm0 hX hXB hS hE (i := i)
        (by omega) (by omega) (hc (i + 1)) hat.cons
      rw [e]
      dsimp only
      have hat2 : NearAt fin val dF B κ (ε + u * (2 * Dm)) Dm N data cents0 tol maxIters Q Eu (i + 1) s2.changed s2 := by
        refine ⟨q1, q2, q4, fun h => by omega, fun he => ?_⟩
        obtain ⟨hb, tr, t1, t2, t3, t4, t5⟩ := hat.trace he
        have hcast : ((i + 1 : Nat) : F) * (ε + u * (2 * Dm)) + (ε + u * (2 * Dm)) =
            ((i + 1 + 1 : Nat) : F) * (ε + u * (2 * Dm)) := by push_cast; ring
        obtain ⟨w1, w2⟩ := q5 _ (hEu he) (by
          have : (1 : F) * (ε + u * (2 * Dm)) ≤ ((i + 1 : Nat) : F) * (ε + u * (2 * Dm)) :=
            mul_le_mul_of_nonneg_right (by exact_mod_cast (by omega : 1 ≤ i + 1)) hθ
          linarith) hb
        rw [hcast] at w1
        have hζ : ((i + 1 : Nat) : F) * (ε + u * (2 * Dm)) + 2 * (ε + u * (2 * Dm)) ≤
            ((maxIters + 2 : Nat) : F) * (ε + u * (2 * Dm)) := by
          have : ((i + 3 : Nat) : F) * (ε + u * (2 * Dm)) ≤ ((maxIters + 2 : Nat) : F) * (ε + u * (2 * Dm)) :=
            mul_le_mul_of_nonneg_right (by exact_mod_cast (by omega : i + 3 ≤ maxIters + 2)) hθ
          refine le_trans (le_of_eq ?_) this
          push_cast; ring
        refine ⟨w1, _, run_snoc t1 t2 (fun r hr => ?_) q4, ?_, ?_, fun _ => ?_, ?_⟩
        · obtain ⟨a, w3, w4⟩ := w2 r hr
          exact ⟨a, w3, nearNearest_mono hζ w4⟩
        · rw [Function.update_self]
        · rw [Function.update_self]; intro _ _; rfl
        · rw [Function.update_self, Function.update_of_ne (show i + 1 - 1 ≠ i + 1 by omega), Nat.add_sub_cancel, q3, h0,
            Nat.zero_add]
          exact Kmeans.numChanged_congr t3 fun _ _ => rfl
        · intro j a b
          rw [Function.update_of_ne (show j ≠ i + 1 by omega), Function.update_of_ne (show j - 1 ≠ i + 1 by omega)]
          by_cases hji : j = i
          · subst hji
            rw [← t4 a]
            exact hns a
          · exact t5 j a (by omega)
      by_cases hcv : Kmeans.convTest N tol s2.changed = true
      · rw [if_pos hcv]
        exact ⟨_, rfl, hat2.done (by omega) hgo (.inl ⟨by omega, hcv, rfl⟩)⟩
      · rw [if_neg hcv]
        refine ih (i + 1) s2.changed { s2 with changed := 0 } (by omega) hgo (by omega) rfl ?_ (fun _ => by simpa using hcv)
        exact ⟨⟨hat2.cons.wf, hat2.cons.num, hat2.cons.complete, hat2.cons.box, hat2.cons.assigned, hat2.cons.means⟩,
          hat2.counts, hat2.means, hat2.rows, fun he => by
            obtain ⟨hb, h⟩ := hat2.trace he
            exact ⟨⟨hb.prev, hb.slots⟩, h⟩⟩
    · rw [if_neg (fun h => hgo h.1)]
      obtain rfl : i = maxIters := by omega
      exact ⟨_, rfl, hat.done h1 h2 (.inr ⟨hns, rfl, rfl⟩)⟩

/-- The whole run from a state that the initialisation leaves. -/
theorem run_near (hA : RoundsAll fin val u η M K)
    (hle : ∀ x y, fin x → fin y → (x ≤ y ↔ val x ≤ val y)) {B ε Dm G κ γ ζ : F}
    {dist eucl : Row R n → Row R n → R} {big : R} {dF dG : (Fin n → F) → (Fin n → F) → F} {data : Nat → Row R n}
    {N nt W maxIters : Nat} {tol : R} {sched : Nat → List Nat} {s0 : PState R R k n}
    (hk : 1 < k) (hD : MetricRounds fin val B eucl big dF ε Dm) (hDm : 2 * Dm ≤ M) (hDm0 : 0 ≤ Dm) (hε : 0 ≤ ε)
    (hR : DistRounds fin val B dist big dG γ ζ)
    (hX : 0 ≤ X) (hXB : X + maxIters * κ ≤ B) (hS : OSizes fin val X K N nt W data)
    (hE : OErr u η M X G κ N W maxIters) (hm : 0 < maxIters)
    (hc : ∀ i, Complete (effThreads nt N) (taskRows N nt) (sched i)) (hwf : DistMatrix.WF k s0.dm)
    (hbox : ∀ c, InBox fin val B (s0.cltrs.means c)) (hprev : s0.prevMeans = fun _ _ => 0)
    (hrow : ∀ r, r < N → OwnSlot fin val dist big (data r) s0.cltrs.means (s0.slots r)) :
    ∃ res, run dist eucl big data N nt tol maxIters sched s0 = .ok res ∧
      NearDone fin val dF (((maxIters + 2 : Nat) : F) * (ε + u * (2 * Dm))) (maxIters * κ) N data s0.cltrs.means tol
        maxIters (fun r c => NearNearest γ ζ (trueDist val dG data s0.cltrs.means r) c)
        (dist = eucl ∧ NearSmallFirstMoves dF (((maxIters + 2 : Nat) : F) * (ε + u * (2 * Dm))) (maxIters * κ) N
          (fun r j => val (data r j)) (fun c j => val (s0.cltrs.means c j))) res := by
  have hu := hA.u_nonneg
  have hθ : 0 ≤ ε + u * (2 * Dm) := by positivity
  have hG0 : 0 ≤ G := le_trans (mul_nonneg (Nat.cast_nonneg _) hX) hE.sum_le
  have hκ0 : 0 ≤ κ := by
    rw [hE.kappa]
    have := one_le_pow_u hu W
    exact mul_nonneg (by linarith) hG0
  have hXB' : X ≤ B := by
    have : 0 ≤ (maxIters : F) * κ := mul_nonneg (Nat.cast_nonneg _) hκ0
    linarith
  have hx : ∀ r, r < N → InBox fin val B (data r) := fun r hr j =>
    ⟨(hS.rows r hr j).1, (hS.rows r hr j).2.trans hXB'⟩
  have hfirst := fun r hr => slotStep_first (v := s0.view) hA.lt hR (hx r hr) hbox (by omega) (hrow r hr)
  obtain ⟨s1, e, q2, q3, q4, q5, q6, q7⟩ := iteration_cons hA (eucl := eucl) (dist := dist) (big := big) (i := 0) hX hXB
    hS hE hm (hc 1) hwf (fun r hr => by
      obtain ⟨s', h1, a, h2, _⟩ := hfirst r hr
      exact ⟨s', h1, a, h2⟩) (fun h => absurd rfl h)
  rw [decide_eq_true rfl] at e q2
  have hslot : ∀ r, r < N → ∃ a, (s1.slots r).assign = some a ∧
      NearNearest γ ζ (trueDist val dG data s0.cltrs.means r) a := by
    intro r hr
    obtain ⟨s', h1, h⟩ := hfirst r hr
    have := q2 r hr
    rw [show slotStep dist big data s0.view true r (s0.slots r) = .ok s' from h1] at this
    simp only [Except.ok.injEq] at this
    subst this
    exact h
  have hB0 : 0 ≤ B := hX.trans hXB'
  have hz : InBox fin val B (fun _ : Fin n => (0 : R)) := fun j => by
    obtain ⟨z1, z2⟩ := hA.zero
    exact ⟨z1, by rw [z2, abs_zero]; exact hB0⟩
  have hat : NearAt fin val dF B κ (ε + u * (2 * Dm)) Dm N data s0.cltrs.means tol maxIters
      (fun r c => NearNearest γ ζ (trueDist val dG data s0.cltrs.means r) c)
      (dist = eucl ∧ NearSmallFirstMoves dF (((maxIters + 2 : Nat) : F) * (ε + u * (2 * Dm))) (maxIters * κ) N
          (fun r j => val (data r j)) (fun c j => val (s0.cltrs.means c j))) 1 0 { s1 with changed := 0 } := by
    refine ⟨⟨q3.wf, q3.num, q3.complete, q3.box, q3.assigned, q3.means⟩, q5, q7, fun _ => hslot, ?_⟩
    rintro ⟨rfl, hsm⟩
    have hstep : ∀ r, r < N → ∃ a, (s1.slots r).assign = some a ∧ fin (s1.slots r).ub ∧ 0 ≤ val (s1.slots r).ub ∧
        val (s1.slots r).ub ≤ Dm ∧
        trueDist val dF data s0.cltrs.means r a ≤ val (s1.slots r).ub + ε ∧
        ∀ c, trueDist val dF data s0.cltrs.means r a ≤ trueDist val dF data s0.cltrs.means r c + 2 * ε := by
      intro r hr
      have hst : StartSlot fin val dF ε Dm big (data r) s0.view.cents (s0.slots r) := by
        rcases hrow r hr with h | ⟨c, h1, h2, h3⟩
        · exact .inl h
        · obtain ⟨w1, w2, w3, w4⟩ := hD.near _ _ (hx r hr) (hbox c)
          refine .inr ⟨c, h1, h2, ?_⟩
          rw [h3]
          exact ⟨w2, w3, w4⟩
      obtain ⟨t, a', k1, k2, k3, k4, k5, k6, k7⟩ := slotStep_init_near (v := s0.view) hA.lt hD (hx r hr) hbox (by omega) hst
      have := q2 r hr
      rw [show slotStep dist big data s0.view true r (s0.slots r) = .ok t from k1] at this
      simp only [Except.ok.injEq] at this
      subst this
      exact ⟨a', k2, k3, k4, k5, k6, k7⟩
    have htr : NearLloydRun dF 0 (((maxIters + 2 : Nat) : F) * (ε + u * (2 * Dm))) 0 (maxIters * κ) N
        (fun r j => val (data r j)) (fun c j => val (s0.cltrs.means c j)) (0 + 1)
        (Function.update (fun _ => ⟨fun c j => val (s0.cltrs.means c j), fun _ => none⟩) (0 + 1)
          ⟨fun c j => val (s1.cltrs.means c j), assignOf s1.slots⟩) := by
      refine run_snoc (old := s0.cltrs.means) ⟨rfl, fun _ => rfl, fun i hi => by omega⟩ rfl (fun r hr => ?_) q7
      obtain ⟨a, w1, _, _, _, _, w2⟩ := hstep r hr
      refine ⟨a, w1, fun c => ?_⟩
      have h1 := w2 c
      have h2 : (1 : F) * (ε + u * (2 * Dm)) ≤ ((maxIters + 2 : Nat) : F) * (ε + u * (2 * Dm)) :=
        mul_le_mul_of_nonneg_right (by exact_mod_cast (by omega : 1 ≤ maxIters + 2)) hθ
      have h3 : 0 ≤ u * (2 * Dm) := by positivity
      rw [sub_zero, one_mul, add_zero, one_mul]
      linarith
    have hpd : ∀ c, _ := fun c => hD.near _ _ (q3.box c) hz
    have hpv : ∀ c, s1.prevDist c = dist (s1.cltrs.means c) (fun _ => 0) := fun c => by
      rw [q4 c, if_pos rfl, hprev]
    refine ⟨⟨fun c => ?_, fun r hr => ?_⟩, _, htr, ?_, ?_, fun h => by omega, fun j a b => by omega⟩
    · rw [show ({ s1 with changed := 0 } : PState R R k n).prevDist c = s1.prevDist c from rfl, hpv c]
      exact ⟨(hpd c).1, (hpd c).2.1, (hpd c).2.2.1⟩
    · obtain ⟨a, h1, h2, h3, h4, h5, _⟩ := hstep r hr
      refine ⟨a, h1, h2, h3, h4, ?_⟩
      dsimp only
      have t1 := hD.tri (fun j => val (data r j)) (fun j => val (s0.cltrs.means a j)) (fun j => val (s1.cltrs.means a j))
      have t2 := (abs_le.1 (hpd a).2.2.2).1
      have t3 := hsm _ htr a
      rw [Function.update_self] at t3
      have t4 : (fun _ : Fin n => val (0 : R)) = fun _ => 0 := by funext _; exact hA.zero.2
      rw [t4] at t2
      rw [hpv a]
      have h6 : 0 ≤ u * (2 * Dm) := by positivity
      have h7 : ((1 + 1 : Nat) : F) * (ε + u * (2 * Dm)) = 2 * (ε + u * (2 * Dm)) := by push_cast; ring
      rw [h7]
      unfold trueDist at h5 ⊢
      dsimp only at t3
      linarith
    · rw [Function.update_self]
    · rw [Function.update_self]; intro _ _; rfl
  obtain ⟨res, er, hres⟩ := loop_near hA hle (dist := dist) (tol := tol) (fun h => h.1) hk hD hDm hDm0 hε hX hXB hS hE hc
    maxIters 1 0 _ (le_refl _) (by omega) (by omega) rfl hat (fun h => by omega)
  refine ⟨res, ?_, hres⟩
  unfold run
  rw [if_pos hm, e]
  exact er

end Knor.Prune
