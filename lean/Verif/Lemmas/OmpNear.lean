import Verif.Lemmas.NearLloyd
import Verif.Lemmas.Omp
import Verif.Spec.NearOmp

/-!
# The OpenMP variant in rounded arithmetic
-/

namespace Knor.Omp

open Knor Knor.Par Knor.Partition Knor.Spec Knor.Kmeans

variable {R F : Type _} {k n : Nat}

theorem merge_of_update_any [Zero R] [Add R] [Div R] [IntCast R] {N T : Nat} {acc : Nat → Kmeans.Acc R k n}
    {a : Nat → Option (Fin k)} {x : Kmeans.KState R k n}
    (h : Kmeans.updateClusters N T acc a = .ok x) : merge N T acc a 0 = .ok x := by
  unfold Kmeans.updateClusters at h
  unfold merge
  simp only at h ⊢
  split at h
  · simp at h
  · rename_i h1
    rw [if_neg h1]
    split at h
    · simp at h
    · exact h

/-- An iteration in closed form, in any arithmetic. -/
theorem emStep_scan [Zero R] [Add R] [Div R] [IntCast R] [LT R] [DecidableLT R]
    {dist : Row R n → Row R n → R} {big : R} {data : Nat → Row R n} {N T : Nat} {todo : Nat → List Nat}
    {sched : List Nat} {s : KState R k n} (hn : 0 < N) (hsp : Split N T todo) (hc : Complete T todo sched)
    (hs : s.changed = 0)
    (hb : ∀ r, r < N → ∃ c, emScan big (fun c => dist (data r) (s.cltrs.means c)) = some c) :
    emStep dist big data N T todo sched s =
      let new := newAssign dist big data N s.cltrs.means s.assign
      .ok { cltrs := clustersAny N T todo data new
            assign := new
            counts := fun c => (Spec.count N new c : Int)
            changed := numChanged N s.assign new } := by
  obtain ⟨c0, _⟩ := hb 0 hn
  set new := newAssign dist big data N s.cltrs.means s.assign with hnewdef
  have hnew : ∀ r, r < N → new r = some ((new r).getD c0) := by
    intro r hr
    obtain ⟨c, hc⟩ := hb r hr
    have : new r = some c := by rw [hnewdef]; unfold newAssign; rw [if_pos hr]; exact hc
    rw [this]; rfl
  obtain ⟨p, h1, _, h3, h4, h5⟩ := run_complete (μ := Option (Fin k)) (α := Acc R k n)
    (f := emRow dist big data s.cltrs.means) (T := T)
    (s0 := { mem := s.assign, acc := fun _ => Acc.init, todo := todo })
    (newMem := new)
    (upd := fun r a =>
      { changed := if new r ≠ s.assign r then a.changed + 1 else a.changed
        loc := a.loc.addMember (data r) ((new r).getD c0) })
    hsp.disjoint hsp.idle
    (by
      intro t r a hr
      have hrN : r < N := (hsp.mem_iff r).1 ⟨t, hr⟩
      have e : emScan big (fun c => dist (data r) (s.cltrs.means c)) = new r := by
        rw [hnewdef]; unfold newAssign; rw [if_pos hrN]
      unfold emRow
      simp only [e]
      rw [hnew r hrN]
      simp)
    hc
  have hmem : p.mem = new := by
    funext r
    by_cases hr : r < N
    · obtain ⟨t, ht⟩ := (hsp.mem_iff r).2 hr
      exact h3 t r ht
    · rw [h4 r fun t ht => hr ((hsp.mem_iff r).1 ⟨t, ht⟩)]
      simp [hnewdef, newAssign, hr]
  unfold emStep
  rw [h1]
  simp only
  rw [hmem, hs]
  exact merge_of_update_any (updateClusters_any hsp data (fun r => (new r).getD c0) s.assign new hnew p.acc h5)

/-- What the run assumes about the sizes: rows at most `X`, everything at most `B`, `T` threads with at most `N` rows
each. -/
structure OmpSizes [Field F] [LinearOrder F] (fin : R → Prop) (val : R → F) (u η M X B : F) (K N T : Nat)
    (data : Nat → Row R n) : Prop where
  n_pos : 0 < N
  n_le : N ≤ K
  rows : ∀ r, r < N → InBox fin val X (data r)
  x_le : X ≤ B
  mean_le : (1 + u) ^ (N + T + 1) * X + η ≤ B
  sum_le : (1 + u) ^ (N + T) * (N * X) ≤ M

theorem rows_length (N T : Nat) (owner : Nat → Nat) (t : Nat) : (rows N T owner t).length ≤ N := by
  unfold rows
  split
  · exact (List.length_filter_le _ _).trans List.length_range.le
  · simp

section Run

variable [Zero R] [Add R] [Sub R] [Mul R] [Div R] [IntCast R] [LT R] [DecidableLT R]
  [Field F] [LinearOrder F] [IsStrictOrderedRing F] {fin : R → Prop} {val : R → F} {u η M X B : F}
  {K N T : Nat} {data : Nat → Row R n}

omit [Sub R] [Mul R] [LT R] [DecidableLT R] in
theorem omp_means (hR : Rounds fin val u η M K) (hS : OmpSizes fin val u η M X B K N T data) {owner : Nat → Nat}
    (ho : ∀ r, r < N → owner r < T) (a : Nat → Option (Fin k)) (c : Fin k) (j : Fin n) :
    let m := clustersAny N T (rows N T owner) data a
    (fin (m.means c j) ∧ |val (m.means c j)| ≤ B) ∧
    |val (m.means c j) - memberMean N (fun r j => val (data r j)) a c j| ≤
      ((1 + u) ^ (N + T + 1) - 1) * memberMean N (fun r j => |val (data r j)|) a c j + η := by
  intro m
  have hu := hR.u_nonneg
  have hX0 : 0 ≤ X := (abs_nonneg _).trans (hS.rows 0 hS.n_pos j).2
  have hsum := memberSum_abs_le hS.rows a c j
  have hle : memberSum N (fun r j => |val (data r j)|) a c j ≤ N * X :=
    hsum.trans (mul_le_mul_of_nonneg_right (by exact_mod_cast count_le a c) hX0)
  obtain ⟨h1, h2⟩ := clustersAny_near hR (split_rows ho) (rows_length N T owner) hS.n_le data
    (fun r hr j => (hS.rows r hr j).1) a c j
    ((mul_le_mul_of_nonneg_left hle (by positivity)).trans hS.sum_le)
  refine ⟨⟨h1, ?_⟩, h2⟩
  have ha : memberMean N (fun r j => |val (data r j)|) a c j ≤ X := by
    unfold memberMean
    split
    · exact hX0
    · rename_i h0
      rw [div_le_iff₀ (by exact_mod_cast Nat.pos_of_ne_zero h0), mul_comm]
      exact hsum
  have hm : |memberMean N (fun r j => val (data r j)) a c j| ≤
      memberMean N (fun r j => |val (data r j)|) a c j := by
    unfold memberMean
    split
    · simp
    · rw [abs_div, Nat.abs_cast]
      apply div_le_div_of_nonneg_right _ (Nat.cast_nonneg _)
      exact Finset.abs_sum_le_sum_abs _ _
  have hp := one_le_pow_u hu (N + T + 1)
  set e := (1 + u) ^ (N + T + 1) with he
  refine le_trans ?_ hS.mean_le
  calc |val (m.means c j)| = |(val (m.means c j) - memberMean N (fun r j => val (data r j)) a c j) +
          memberMean N (fun r j => val (data r j)) a c j| := by congr 1; ring
    _ ≤ _ := abs_add_le _ _
    _ ≤ ((e - 1) * memberMean N (fun r j => |val (data r j)|) a c j + η) +
        memberMean N (fun r j => |val (data r j)|) a c j := add_le_add h2 hm
    _ = e * memberMean N (fun r j => |val (data r j)|) a c j + η := by ring
    _ ≤ _ := add_le_add (mul_le_mul_of_nonneg_left ha (by positivity)) le_rfl

variable {dist : Row R n → Row R n → R} {big : R} {dF : (Fin n → F) → (Fin n → F) → F} {γ ζ : F}
  {cents0 : Fin k → Row R n} {owner : Nat → Nat → Nat}

/-- Centroids and assignment after `i` iterations. -/
def trOmp (dist : Row R n → Row R n → R) (big : R) (data : Nat → Row R n) (N T : Nat) (owner : Nat → Nat → Nat)
    (cents0 : Fin k → Row R n) : Nat → Snap R k n
  | 0 => ⟨cents0, fun _ => none⟩
  | i + 1 =>
    let s := trOmp dist big data N T owner cents0 i
    let a := newAssign dist big data N s.cents s.assign
    ⟨(clustersAny N T (rows N T (owner (i + 1))) data a).means, a⟩

omit [Sub R] [Mul R] in
theorem trOmp_box (hR : Rounds fin val u η M K) (hS : OmpSizes fin val u η M X B K N T data)
    (ho : ∀ i r, r < N → owner i r < T) (h0 : ∀ c, InBox fin val B (cents0 c)) :
    ∀ i c, InBox fin val B ((trOmp dist big data N T owner cents0 i).cents c)
  | 0, c => h0 c
  | i + 1, c => fun j => (omp_means hR hS (ho (i + 1)) _ c j).1

theorem trOmp_scan (hA : RoundsAll fin val u η M K) (hk : 0 < k) (hD : DistRounds fin val B dist big dF γ ζ)
    (hS : OmpSizes fin val u η M X B K N T data) (ho : ∀ i r, r < N → owner i r < T)
    (h0 : ∀ c, InBox fin val B (cents0 c)) (i r : Nat) (hr : r < N) :
    ∃ c, emScan big (fun c => dist (data r) ((trOmp dist big data N T owner cents0 i).cents c)) = some c ∧
      NearNearest γ ζ (fun c => dF (fun j => val (data r j)) fun j =>
        val ((trOmp dist big data N T owner cents0 i).cents c j)) c :=
  scan_near hA hk hD (InBox.mono (hS.rows r hr) hS.x_le) (trOmp_box hA.toRounds hS ho h0 i)

theorem trOmp_step (hA : RoundsAll fin val u η M K) (hk : 0 < k) (hD : DistRounds fin val B dist big dF γ ζ)
    (hS : OmpSizes fin val u η M X B K N T data) (ho : ∀ i r, r < N → owner i r < T)
    (h0 : ∀ c, InBox fin val B (cents0 c)) (i : Nat) :
    NearLloydStep dF γ ζ ((1 + u) ^ (N + T + 1) - 1) η N
      (fun r j => val (data r j)) (snapVal val (trOmp dist big data N T owner cents0 i))
      (snapVal val (trOmp dist big data N T owner cents0 (i + 1))) where
  assigned := by
    intro r hr
    obtain ⟨c, h1, h2⟩ := trOmp_scan hA hk hD hS ho h0 i r hr
    refine ⟨c, ?_, h2⟩
    change newAssign dist big data N _ _ r = some c
    unfold newAssign
    rw [if_pos hr]
    exact h1
  means := fun c j => (omp_means hA.toRounds hS (ho (i + 1)) _ c j).2

/-- The state agrees with the trace after `i` iterations. -/
structure OmpAt (dist : Row R n → Row R n → R) (big : R) (data : Nat → Row R n) (N T : Nat)
    (owner : Nat → Nat → Nat) (cents0 : Fin k → Row R n) (i : Nat) (s : KState R k n) : Prop where
  means : s.cltrs.means = (trOmp dist big data N T owner cents0 i).cents
  later : i ≠ 0 → s.assign = (trOmp dist big data N T owner cents0 i).assign ∧
    ∀ c, s.counts c = (Spec.count N (trOmp dist big data N T owner cents0 i).assign c : Int)

theorem loop_trace (hA : RoundsAll fin val u η M K) (hk : 0 < k) (hD : DistRounds fin val B dist big dF γ ζ)
    (hS : OmpSizes fin val u η M X B K N T data) (ho : ∀ i r, r < N → owner i r < T)
    (h0 : ∀ c, InBox fin val B (cents0 c))
    [NatCast R] [LE R] [DecidableLE R] (tol : R) (budget : Nat) (sched : Nat → List Nat)
    (hc : ∀ i, Complete T (rows N T (owner i)) (sched i)) (hm : 0 < budget) :
    let tr := trOmp dist big data N T owner cents0
    let stops := fun i => convTest N tol (numChanged N (tr (i - 1)).assign (tr i).assign)
    ∀ fuel i (s : KState R k n), budget < i + fuel → i ≤ budget → OmpAt dist big data N T owner cents0 i s →
      s.changed = 0 → (∀ j, 1 ≤ j → j ≤ i → stops j = false) →
      ∃ res m, loop dist big data N T owner tol (budget + 1) sched fuel (i + 1) s = .ok res ∧ 1 ≤ m ∧ m ≤ budget ∧
        OmpAt dist big data N T owner cents0 m res.state ∧ (∀ j, 1 ≤ j → j < m → stops j = false) ∧
        (stops m = true ∧ res.iters = m ∨ stops m = false ∧ m = budget ∧ res.iters = budget + 1) := by
  intro tr stops fuel
  induction fuel with
  | zero => intro i s h h'; omega
  | succ fuel ih =>
    intro i s hf hi hat hch hns
    unfold loop
    by_cases hg : i + 1 < budget + 1
    · rw [if_pos hg]
      dsimp only
      set s1 : KState R k n := if i + 1 = 1 then { s with assign := fun _ => none } else s with hs1
      have hmeans : s1.cltrs.means = (tr i).cents := by
        rw [hs1]; split <;> exact hat.means
      have hch1 : s1.changed = 0 := by
        rw [hs1]; split <;> exact hch
      have hassign : s1.assign = (tr i).assign := by
        rw [hs1]
        split
        · have : i = 0 := by omega
          subst this; rfl
        · exact (hat.later (by omega)).1
      have hit := emStep_scan (s := s1) hS.n_pos (split_rows (ho (i + 1))) (hc (i + 1)) (dist := dist) (big := big)
        (data := data) hch1 (fun r hr => by
          rw [hmeans]
          obtain ⟨c, h1, _⟩ := trOmp_scan hA hk hD hS ho h0 i r hr
          exact ⟨c, h1⟩)
      rw [hmeans, hassign] at hit
      rw [hit]
      dsimp only
      set s2 : KState R k n :=
        { cltrs := clustersAny N T (rows N T (owner (i + 1))) data
            (newAssign dist big data N (tr i).cents (tr i).assign)
          assign := newAssign dist big data N (tr i).cents (tr i).assign
          counts := fun c => (Spec.count N (newAssign dist big data N (tr i).cents (tr i).assign) c : Int)
          changed := numChanged N (tr i).assign (newAssign dist big data N (tr i).cents (tr i).assign) } with hs2
      have hat2 : OmpAt dist big data N T owner cents0 (i + 1) s2 := ⟨rfl, fun _ => ⟨rfl, fun _ => rfl⟩⟩
      have hst : stops (i + 1) = convTest N tol s2.changed := rfl
      by_cases hcv : convTest N tol s2.changed = true
      · rw [if_pos hcv]
        refine ⟨_, i + 1, rfl, by omega, by omega, hat2, fun j h1 h2 => hns j h1 (by omega), Or.inl ⟨?_, rfl⟩⟩
        rw [hst]; exact hcv
      · rw [if_neg hcv]
        refine ih (i + 1) { s2 with changed := 0 } (by omega) (by omega) ⟨hat2.means, hat2.later⟩ rfl fun j h1 h2 => ?_
        by_cases hj : j = i + 1
        · subst hj; rw [hst]; simpa using hcv
        · exact hns j h1 (by omega)
    · rw [if_neg hg]
      have : i = budget := by omega
      subst this
      exact ⟨_, i, rfl, hm, le_rfl, hat, fun j h1 h2 => hns j h1 (by omega),
        Or.inr ⟨hns i hm le_rfl, rfl, rfl⟩⟩

/-- If no row changed its cluster and every row stayed with its thread, the centroids did not change either. -/
theorem trOmp_fixed (hA : RoundsAll fin val u η M K) (hk : 0 < k) (hD : DistRounds fin val B dist big dF γ ζ)
    (hS : OmpSizes fin val u η M X B K N T data) (ho : ∀ i r, r < N → owner i r < T)
    (h0 : ∀ c, InBox fin val B (cents0 c)) (hsame : ∀ i r, r < N → owner i r = owner 0 r) {m : Nat} (hm : 1 ≤ m)
    (h : numChanged N (trOmp dist big data N T owner cents0 (m - 1)).assign
      (trOmp dist big data N T owner cents0 m).assign = 0) :
    (trOmp dist big data N T owner cents0 (m - 1)).cents = (trOmp dist big data N T owner cents0 m).cents := by
  obtain ⟨i, rfl⟩ : ∃ i, m = i + 1 := ⟨m - 1, by omega⟩
  rw [Nat.add_sub_cancel] at h ⊢
  have heq : ∀ r, r < N → (trOmp dist big data N T owner cents0 i).assign r =
      (trOmp dist big data N T owner cents0 (i + 1)).assign r := by
    intro r hr
    by_contra hne
    unfold numChanged at h
    rw [Finset.card_eq_zero] at h
    have : r ∈ (Finset.range N).filter fun r => (trOmp dist big data N T owner cents0 i).assign r ≠
        (trOmp dist big data N T owner cents0 (i + 1)).assign r :=
      Finset.mem_filter.2 ⟨Finset.mem_range.2 hr, hne⟩
    rw [h] at this
    simp at this
  cases i with
  | zero =>
    obtain ⟨c, h1, _⟩ := (trOmp_step hA hk hD hS ho h0 0).assigned 0 hS.n_pos
    have e := heq 0 hS.n_pos
    have h1' : (trOmp dist big data N T owner cents0 (0 + 1)).assign 0 = some c := h1
    rw [h1'] at e
    cases e
  | succ i =>
    have hout : ∀ i r, ¬ r < N → (trOmp dist big data N T owner cents0 i).assign r = none := by
      intro i r hr
      induction i with
      | zero => rfl
      | succ i ih =>
        change newAssign dist big data N _ _ r = none
        unfold newAssign
        rw [if_neg hr]
        exact ih
    have hall : (trOmp dist big data N T owner cents0 (i + 1)).assign =
        (trOmp dist big data N T owner cents0 (i + 1 + 1)).assign := by
      funext r
      by_cases hr : r < N
      · exact heq r hr
      · rw [hout _ r hr, hout _ r hr]
    have hrow : rows N T (owner (i + 1)) = rows N T (owner (i + 1 + 1)) := by
      funext t
      unfold rows
      split
      · apply List.filter_congr
        intro r hr
        rw [hsame (i + 1) r (List.mem_range.1 hr), hsame (i + 1 + 1) r (List.mem_range.1 hr)]
      · rfl
    change (clustersAny N T (rows N T (owner (i + 1))) data (trOmp dist big data N T owner cents0 (i + 1)).assign).means =
      (clustersAny N T (rows N T (owner (i + 1 + 1))) data (trOmp dist big data N T owner cents0 (i + 1 + 1)).assign).means
    rw [hall, hrow]

/-- The run of the OpenMP variant is Lloyd's algorithm up to rounding. -/
theorem run_near (hA : RoundsAll fin val u η M K) (hk : 0 < k) (hD : DistRounds fin val B dist big dF γ ζ)
    [NatCast R] [LE R] [DecidableLE R] {tol : R} {budget : Nat} {sched : Nat → List Nat} {s0 : KState R k n}
    (hS : OmpSizes fin val u η M X B K N T data) (ho : ∀ i r, r < N → owner i r < T)
    (h0 : ∀ c, InBox fin val B (s0.cltrs.means c)) (hm : 0 < budget)
    (hc : ∀ i, Complete T (rows N T (owner i)) (sched i)) :
    ∃ res, run dist big data N T owner tol (budget + 1) sched s0 = .ok res ∧
      NearLloydOrder fin val dF γ ζ ((1 + u) ^ (N + T + 1) - 1) η N data s0.cltrs.means tol budget
        (∀ i r, r < N → owner i r = owner 0 r) res.iters res.state.assign res.state.counts res.state.cltrs.means := by
  have hconv : ∀ ch : Nat, convTest N tol ch = true ↔ (ch = 0 ∨ (ch : R) / (N : R) ≤ tol) := by
    intro ch; unfold convTest; simp
  obtain ⟨res, m, h1, h2, h3, h4, h5, h6⟩ := loop_trace hA hk hD hS ho h0 tol budget sched hc hm (budget + 1) 0
    { s0 with changed := 0 } (by omega) (by omega) ⟨rfl, fun h => absurd rfl h⟩ rfl (fun j h h' => by omega)
  refine ⟨res, ?_, m, fun i => snapVal val (trOmp dist big data N T owner s0.cltrs.means i), h2, h3,
    ⟨rfl, fun _ => rfl, fun i _ => trOmp_step hA hk hD hS ho h0 i⟩, ?_, ?_, ?_, ?_, ?_, ?_⟩
  · unfold run
    rw [if_pos (by omega)]
    exact h1
  · intro i hi hi' hs
    exact Bool.false_ne_true ((h5 i hi hi').symm.trans ((hconv _).2 hs))
  · rcases h6 with ⟨h, h'⟩ | ⟨h, h', h''⟩
    · exact Or.inl ⟨(hconv _).1 h, h'⟩
    · refine Or.inr ⟨fun hs => ?_, h', h''⟩
      exact Bool.false_ne_true (h.symm.trans ((hconv _).2 hs))
  · intro r _
    rw [(h4.later (by omega)).1]
    rfl
  · intro c
    rw [(h4.later (by omega)).1]
    exact (h4.later (by omega)).2 c
  · intro c j
    rw [h4.means]
    exact ⟨(trOmp_box hA.toRounds hS ho h0 m c j).1, rfl⟩
  · intro hsame hch r hr
    have e := trOmp_fixed hA hk hD hS ho h0 hsame h2 hch
    obtain ⟨i, rfl⟩ : ∃ i, m = i + 1 := ⟨m - 1, by omega⟩
    obtain ⟨c, hc1, hc2⟩ := (trOmp_step hA hk hD hS ho h0 i).assigned r hr
    rw [(h4.later (by omega)).1]
    refine ⟨c, hc1, ?_⟩
    rw [Nat.add_sub_cancel] at e
    rw [h4.means, ← e]
    exact hc2

end Run

end Knor.Omp
