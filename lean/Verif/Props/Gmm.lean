import Mathlib.Analysis.SpecialFunctions.Log.Base
import Mathlib.Algebra.BigOperators.Fin
import Mathlib.Algebra.BigOperators.Field
import Verif.Lemmas.Gmm
import Verif.Lemmas.Ext

/-!
# Property C83: Gaussian mixtures

The arithmetic is any that follows the rules of IEEE 754 for special values (`Spec.Ieee`), with any rounding;
the workers interleave in any way.
-/

namespace Knor.Gmm

open Knor Knor.Spec

variable {F S : Type _} {k n : Nat}

/-- Rows of the worker with the most rows, the last one. -/
def lastLen (nrow nthreads : Nat) : Nat := nrow / min nthreads nrow + nrow % min nthreads nrow

/-- The draws of the engine are row numbers, and numbers that are zero or positive. -/
structure RngOk (cls : F → Cls) (rng : Rng F S) (nrow : Nat) : Prop where
  row : ∀ s, (rng.row s).1 < nrow
  unit : ∀ s, cls (rng.unit s).1 = .zero ∨ cls (rng.unit s).1 = .pos

/-- In every phase every worker gets to the end of its work. -/
def SchedOk (k nrow nthreads : Nat) (sched : Nat → List Nat) : Prop :=
  ∀ i t, t < min nthreads nrow → (todo k nrow nthreads t).length ≤ (sched i).count t

/-- The call is one that the API documents: centres are given, or the initialisation is by data rows. -/
def Documented (init : String) (given : Option (Fin k → Row F n)) : Prop :=
  (given.isSome = true ∧ (init = "none" ∨ init = "forgy" ∨ init = "random" ∨ init = "kmeanspp")) ∨
    init = "none" ∨ init = "forgy" ∨ init = "random"

variable {o : Ops F} {cls : F → Cls} {data : Nat → Row F n} {nrow nthreads maxIters : Nat} {rng : Rng F S}
  {shared : St F k n → (Fin k → Nat → Nat → F) × (Fin k → F)} {stop : Nat → Bool} {sched : Nat → List Nat}
  {init : String} {given : Option (Fin k → Row F n)}

private theorem lastLen_eq (hN : 0 < nrow) (hnt : 0 < nthreads) (hlt : nrow < 4294967296) :
    ∃ t, t < Partition.effThreads nthreads nrow ∧
      (Partition.ridLen nrow (Partition.effThreads nthreads nrow) t).2 = lastLen nrow nthreads := by
  have hT : 0 < Partition.effThreads nthreads nrow := by
    unfold Partition.effThreads
    omega
  refine ⟨Partition.effThreads nthreads nrow - 1, by omega, ?_⟩
  rw [Partition.ridLen_eq hlt hT (by omega)]
  simp [lastLen, Partition.effThreads]

private theorem len_le (hlt : nrow < 4294967296) {t : Nat}
    (ht : t < Partition.effThreads nthreads nrow) :
    (Partition.ridLen nrow (Partition.effThreads nthreads nrow) t).2 ≤ lastLen nrow nthreads := by
  rw [Partition.ridLen_eq hlt (by omega) ht]
  have e : lastLen nrow nthreads =
    nrow / Partition.effThreads nthreads nrow + nrow % Partition.effThreads nthreads nrow := rfl
  rw [e]
  dsimp only
  split <;> omega

/-- The state after the initialisation. -/
private theorem runInit_spec (h : Ieee o cls) (hnt : 0 < nthreads) (hlt : nrow < 4294967296)
    (hr : RngOk cls rng nrow) (hd : Documented init given) :
    ∃ it s, Driver.getInit init = .ok it ∧ runInit o rng data nrow nthreads it given = .ok s ∧
      (∀ c i j, cls (s.inv c i j) = .zero) ∧ (∀ c, cls (s.dets c) = .zero) ∧ (∀ c, IsN (cls (s.Pk c))) ∧
      (∀ r, cls (s.Px r) = .zero) ∧ s.numChanged = 0 ∧
      (∀ g, given = some g → s.mu = g) ∧
      (given = none → init ≠ "none" → ∀ c, ∃ r, r < nrow ∧ s.mu c = data r) := by
  have hz : IsN (cls o.zero) := .inl h.zero
  obtain ⟨mu, e1, e2, -⟩ := forgy_ok (data := data) (k := k) rng.row hnt hlt hr.row (List.finRange k) rng.seed
    (construct o given : St F k n).mu
  have e2' : ∀ c, ∃ r, r < nrow ∧ mu c = data r := fun c => e2 c (List.mem_finRange c)
  cases given with
  | some g =>
    have hit : ∃ it, Driver.getInit init = .ok it := by
      have : init = "none" ∨ init = "forgy" ∨ init = "random" ∨ init = "kmeanspp" := by
        rcases hd with ⟨-, hd⟩ | hd
        · exact hd
        · rcases hd with hd | hd | hd <;> simp [hd]
      rcases this with rfl | rfl | rfl | rfl <;> exact ⟨_, rfl⟩
    obtain ⟨it, hit⟩ := hit
    refine ⟨it, _, hit, rfl, fun _ _ _ => h.zero, fun _ => h.zero, fun _ => hz, fun _ => h.zero, rfl, ?_, ?_⟩
    · intro g' e
      cases e
      rfl
    · intro e
      cases e
  | none =>
    have hd' : init = "none" ∨ init = "forgy" ∨ init = "random" := by
      rcases hd with ⟨hd, -⟩ | hd
      · cases hd
      · exact hd
    rcases hd' with rfl | rfl | rfl
    · exact ⟨_, _, rfl, rfl, fun _ _ _ => h.zero, fun _ => h.zero, fun _ => hz, fun _ => h.zero, rfl,
        fun g e => (by cases e), fun _ e => absurd rfl e⟩
    · refine ⟨.forgy, _, rfl, by simp only [runInit, Option.isSome_none]; simp only [Bool.false_eq_true, if_false]; rw [e1],
        fun _ _ _ => h.zero, fun _ => h.zero, fun _ => hz, fun _ => h.zero, rfl, ?_, ?_⟩
      · intro g e
        cases e
      · intro _ _ c
        exact e2' c
    · refine ⟨.random, _, rfl, by simp only [runInit, Option.isSome_none]; simp only [Bool.false_eq_true, if_false]; rw [e1],
        fun _ _ _ => h.zero, fun _ => h.zero, ?_, fun _ => h.zero, rfl, ?_, ?_⟩
      · intro c
        simp only [cell]
        rw [fillRows_get _ _ _ _ 0 (by omega)]
        rw [List.getD_eq_getElem?_getD]
        cases q : (normalise o (Init.outputs rng.unit k (Init.skip rng.unit (0 * k) rng.seed)))[c.val]? with
        | none => exact hz
        | some y =>
          exact normalise_isN h _ (outputs_mem rng.unit _ hr.unit _ _) y (List.mem_of_getElem? q)
      · intro g e
        cases e
      · intro _ _ c
        exact e2' c

private theorem loop_first (s : St F k n) (b : Nat) (e : EState F k) (hc : s.numChanged = 0) (hnk : n ≤ k)
    (he : eRun o data nrow nthreads s ⟨s.P, s.Px, todo k nrow nthreads⟩ (sched 1) = .ok e) :
    ∃ s', loop o shared data nrow nthreads stop sched (b + 1) 1 s = .ok (s', 1) ∧ s'.mu = s.mu ∧
      s'.sigma = s.sigma ∧ s'.Pk = s.Pk ∧ s'.P = e.P := by
  simp only [loop, he, updateClusters]
  rw [if_neg (by omega)]
  simp only [hc, true_or, if_true]
  exact ⟨_, rfl, rfl, rfl, rfl, rfl⟩

/-- **C83 is violated: no fit, and no responsibilities.**  Consider a call that the API documents, with at least
one iteration allowed, in which no worker has more rows than there are components and there are no more columns
than components (otherwise see `C83_violated_out_of_bounds` and `C83_violated_columns`).  Whatever the data, the
threads and their interleaving, the call returns, reports one iteration, and

* means, covariances and weights are those of the call with no iterations: the means are the given ones or rows of
  the data, and nothing was estimated;
* of the `nrow * k` responsibilities `nrow` are returned, and all that belong to one of the first rows (as many
  as the last worker has) are NaN, among them the very first. -/
theorem C83_violated (h : Ieee o cls) (hk : 0 < k) (hN : 0 < nrow) (hnt : 0 < nthreads)
    (hlt : nrow < 4294967296) (hr : RngOk cls rng nrow) (hd : Documented init given) (hm : 0 < maxIters)
    (hs : SchedOk k nrow nthreads sched) (hlen : lastLen nrow nthreads ≤ k) (hnk : n ≤ k) :
    ∃ res res0, softRun o shared rng data nrow nthreads maxIters stop sched init given = .ok res ∧
      softRun o shared rng data nrow nthreads 0 stop sched init given = .ok res0 ∧
      res.iters = 1 ∧ res.means = res0.means ∧ res.cov = res0.cov ∧ res.prob = res0.prob ∧
      (∀ g, given = some g → res.means = g) ∧
      (given = none → init ≠ "none" → ∀ c, ∃ r, r < nrow ∧ res.means c = data r) ∧
      res.resp.length = nrow ∧
      (∀ i, i < nrow → i / k < lastLen nrow nthreads → ∃ x, res.resp[i]? = some x ∧ cls x = .nan) ∧
      ∃ x, res.resp[0]? = some x ∧ cls x = .nan := by
  obtain ⟨it, s, hit, hi, h1, h2, h3, h4, h5, h6, h7⟩ := runInit_spec (data := data) h hnt hlt hr hd
  have hsafe : Safe (⟨s.P, s.Px, todo k nrow nthreads⟩ : EState F k) := by
    intro t row c q
    simp only [todo] at q
    split at q
    · have := mem_dens.1 q
      have := len_le hlt (t := t) ‹_›
      omega
    · cases q
  obtain ⟨e, he⟩ := eRun_ok (o := o) (data := data) (nrow := nrow) (nthreads := nthreads) (s := s) (sched 1) _ hsafe
  obtain ⟨b, rfl⟩ : ∃ b, maxIters = b + 1 := ⟨maxIters - 1, by omega⟩
  obtain ⟨s', hl, g1, g2, g3, g4⟩ := loop_first (shared := shared) (stop := stop) s b e h5 hnk he
  have hnan : ∀ i, i < nrow → i / k < lastLen nrow nthreads →
      ∃ x, (result o nrow 1 s').resp[i]? = some x ∧ cls x = .nan := by
    intro i hi hik
    obtain ⟨t, ht, et⟩ := lastLen_eq hN hnt hlt
    refine ⟨s'.P (i / k) ⟨i % k, Nat.mod_lt _ hk⟩, ?_, ?_⟩
    · simp [result, hi, hk]
    · rw [g4]
      exact eRun_nan h h1 h2 h3 h4 (sched 1) (fun t ht => hs 1 t ht) he ht (by rw [et]; exact hik) _
  have hpos : 0 < lastLen nrow nthreads := by
    have : 0 < nrow / min nthreads nrow := Nat.div_pos (Nat.min_le_right _ _) (by omega)
    unfold lastLen
    omega
  refine ⟨result o nrow 1 s', result o nrow 0 s, ?_, ?_, rfl, g1, g2, g3, ?_, ?_, ?_, hnan, hnan 0 hN (by simpa using hpos)⟩
  · unfold softRun
    rw [hit]
    dsimp only
    rw [if_neg (by omega), hi]
    dsimp only
    rw [if_pos (by omega), hl]
  · unfold softRun
    rw [hit]
    dsimp only
    rw [if_neg (by omega), hi]
    rfl
  · intro g eg
    rw [← h6 g eg]
    exact g1
  · intro e1 e2 c
    obtain ⟨r, hr1, hr2⟩ := h7 e1 e2 c
    exact ⟨r, hr1, by rw [← hr2]; exact congrFun g1 c⟩
  · simp [result]

/-- **C83 is violated: out-of-bounds reads.**  If some worker has more rows than there are components, which is
the normal case, every documented call with at least one iteration reads behind the means. -/
theorem C83_violated_out_of_bounds (h : Ieee o cls) (hk : 0 < k) (hN : 0 < nrow) (hnt : 0 < nthreads)
    (hlt : nrow < 4294967296) (hr : RngOk cls rng nrow) (hd : Documented init given) (hm : 0 < maxIters)
    (hs : SchedOk k nrow nthreads sched) (hlen : k < lastLen nrow nthreads) :
    softRun o shared rng data nrow nthreads maxIters stop sched init given = .error .ub := by
  obtain ⟨it, s, hit, hi, -⟩ := runInit_spec (data := data) h hnt hlt hr hd
  obtain ⟨b, rfl⟩ : ∃ b, maxIters = b + 1 := ⟨maxIters - 1, by omega⟩
  have hf : eRun o data nrow nthreads s ⟨s.P, s.Px, todo k nrow nthreads⟩ (sched 1) = .error .ub := by
    cases q : eRun o data nrow nthreads s ⟨s.P, s.Px, todo k nrow nthreads⟩ (sched 1) with
    | error x => rw [eRun_fault _ q]
    | ok e =>
      obtain ⟨t, ht, et⟩ := lastLen_eq hN hnt hlt
      have := eRun_done (t := t) (row := k) (c := ⟨0, hk⟩) (sched 1) q (by
        simp only [todo, if_pos ht]
        exact mem_dens.2 (by omega)) (hs 1 t ht)
      omega
  unfold softRun
  rw [hit]
  dsimp only
  rw [if_neg (by omega), hi]
  dsimp only
  rw [if_pos (by omega)]
  simp only [loop, hf]

/-- **C83 is violated: more columns than components.**  Then every documented call with at least one iteration
writes behind the sums of responsibilities, or reads behind the means before that. -/
theorem C83_violated_columns (h : Ieee o cls) (hk : 0 < k) (hnt : 0 < nthreads)
    (hlt : nrow < 4294967296) (hr : RngOk cls rng nrow) (hd : Documented init given) (hm : 0 < maxIters)
    (hnk : k < n) :
    softRun o shared rng data nrow nthreads maxIters stop sched init given = .error .ub := by
  obtain ⟨it, s, hit, hi, -⟩ := runInit_spec (data := data) h hnt hlt hr hd
  obtain ⟨b, rfl⟩ : ∃ b, maxIters = b + 1 := ⟨maxIters - 1, by omega⟩
  unfold softRun
  rw [hit]
  dsimp only
  rw [if_neg (by omega), hi]
  dsimp only
  rw [if_pos (by omega)]
  simp only [loop]
  cases q : eRun o data nrow nthreads s ⟨s.P, s.Px, todo k nrow nthreads⟩ (sched 1) with
  | error x => rw [eRun_fault _ q]
  | ok e =>
    dsimp only
    simp only [updateClusters, if_pos hnk]

/-- **C83 is violated: all workers write the same entries.**  In every iteration each worker writes the
responsibilities of the first line, twice per component. -/
theorem C83_violated_race (hlt : nrow < 4294967296) (t : Nat)
    (ht : t < min nthreads nrow) (c : Fin k) :
    .dens 0 c ∈ todo k nrow nthreads t ∧ .norm 0 c ∈ todo k nrow nthreads t := by
  have ht' : t < Partition.effThreads nthreads nrow := ht
  have hl : 0 < (Partition.ridLen nrow (Partition.effThreads nthreads nrow) t).2 := by
    rw [Partition.ridLen_eq hlt (by omega) ht']
    have : 0 < nrow / Partition.effThreads nthreads nrow :=
      Nat.div_pos (Nat.min_le_right _ _) (by omega)
    simp only
    split <;> omega
  simp only [todo, if_pos ht']
  exact ⟨mem_dens.2 hl, mem_norm.2 hl⟩

/-- **C83 is violated: k-means++.**  The documented initialisation `kmeanspp` ends with an exception in a worker
unless centres are given. -/
theorem C83_violated_kmeanspp (hk : 0 < k) :
    softRun o shared rng data nrow nthreads maxIters stop sched "kmeanspp" (none : Option (Fin k → Row F n)) =
      .error .throws := by
  unfold softRun
  have : Driver.getInit "kmeanspp" = .ok .plusplus := rfl
  rw [this]
  dsimp only
  rw [if_neg (by omega)]
  rfl

/-! ### What does hold: the starting weights are distributions -/

/-- Exact arithmetic on the reals. -/
noncomputable def realOps : Ops ℝ :=
  { zero := 0, half := 1 / 2, mhalf := -(1 / 2), m := 5, twoPi := 2 * Real.pi
    add := (· + ·), sub := (· - ·), mul := (· * ·), div := (· / ·), log2 := Real.logb 2 }

private theorem foldl_real (l : List ℝ) (a : ℝ) : l.foldl realOps.add a = a + l.sum := by
  induction l generalizing a with
  | nil => simp
  | cons x l ih =>
    rw [List.foldl_cons, ih, List.sum_cons, ← add_assoc]
    rfl

private theorem normalise_sum (l : List ℝ) (h : l.sum ≠ 0) : (normalise realOps l).sum = 1 := by
  have e : normalise realOps l = l.map fun x => x / l.sum := by
    unfold normalise
    rw [foldl_real]
    change l.map (fun x => x / (0 + l.sum)) = _
    rw [zero_add]
  rw [e]
  have : ∀ (l : List ℝ) (s : ℝ), (l.map fun x => x / s).sum = l.sum / s := by
    intro l s
    induction l with
    | nil => simp
    | cons x l ih => rw [List.map_cons, List.sum_cons, List.sum_cons, ih, add_div]
  rw [this, div_self h]

private theorem sum_getD (l : List ℝ) (m : Nat) (h : l.length = m) : ∑ c : Fin m, l.getD c.val 0 = l.sum := by
  subst h
  rw [← Fin.sum_univ_getElem]
  refine Finset.sum_congr rfl fun i _ => ?_
  simp

/-- **C83, the part that holds.**  With exact arithmetic, non-negative draws and no line of draws that sums to
zero, `random` initialisation gives weights, and responsibilities for every row, that are not negative and sum to
one; without iterations they are what is returned (the responsibilities of the rows whose entries all fit into
the returned vector). -/
theorem C83_start_partial {rng : Rng ℝ S} {data : Nat → Row ℝ n}
    {shared : St ℝ k n → (Fin k → Nat → Nat → ℝ) × (Fin k → ℝ)} (hk : 0 < k) (hN : 0 < nrow) (hnt : 0 < nthreads)
    (hlt : nrow < 4294967296) (hrow : ∀ s, (rng.row s).1 < nrow) (hu : ∀ s, 0 ≤ (rng.unit s).1)
    (hpos : ∀ r, r < nrow → (Init.outputs rng.unit k (Init.skip rng.unit (r * k) rng.seed)).sum ≠ 0) :
    ∃ res, softRun realOps shared rng data nrow nthreads 0 stop sched "random" none = .ok res ∧
      (∀ c, ∃ r, r < nrow ∧ res.means c = data r) ∧
      (∀ c, 0 ≤ res.prob c) ∧ ∑ c, res.prob c = 1 ∧
      ∀ r, (r + 1) * k ≤ nrow → ∑ c : Fin k, res.resp.getD (r * k + c) 0 = 1 ∧
        ∀ c : Fin k, 0 ≤ res.resp.getD (r * k + c) 0 := by
  obtain ⟨mu, e1, e2, -⟩ := forgy_ok (data := data) (k := k) rng.row hnt hlt hrow (List.finRange k) rng.seed
    (construct realOps (none : Option (Fin k → Row ℝ n))).mu
  have e2' : ∀ c, ∃ r, r < nrow ∧ mu c = data r := fun c => e2 c (List.mem_finRange c)
  have hlen : ∀ (m : Nat) (s : S), (Init.outputs rng.unit m s).length = m := by
    intro m
    induction m with
    | zero => intro s; rfl
    | succ m ih => intro s; simp [Init.outputs, ih]
  have hline : ∀ (rows r : Nat), r < rows → r < nrow →
      (∑ c : Fin k, cell realOps (fillRows realOps rng.unit k rows rng.seed) r c.val = 1) ∧
        ∀ c : Fin k, 0 ≤ cell realOps (fillRows realOps rng.unit k rows rng.seed) r c.val := by
    intro rows r h1 h2
    simp only [cell]
    rw [fillRows_get _ _ _ _ _ h1]
    constructor
    · have := sum_getD (normalise realOps (Init.outputs rng.unit k (Init.skip rng.unit (r * k) rng.seed))) k
        (by simp [normalise, hlen])
      rw [normalise_sum _ (hpos r h2)] at this
      exact this
    · intro c
      have hmem := outputs_mem rng.unit (fun x => 0 ≤ x) hu k (Init.skip rng.unit (r * k) rng.seed)
      have hs : 0 ≤ (Init.outputs rng.unit k (Init.skip rng.unit (r * k) rng.seed)).sum := List.sum_nonneg hmem
      rw [List.getD_eq_getElem?_getD]
      cases q : (normalise realOps (Init.outputs rng.unit k (Init.skip rng.unit (r * k) rng.seed)))[c.val]? with
      | none => exact le_refl _
      | some y =>
        have hy := List.mem_of_getElem? q
        simp only [normalise, List.mem_map] at hy
        obtain ⟨x, hx, rfl⟩ := hy
        rw [foldl_real]
        change 0 ≤ x / (0 + _)
        rw [zero_add]
        exact div_nonneg (hmem x hx) hs
  let s : St ℝ k n :=
    { (construct realOps (none : Option (Fin k → Row ℝ n))) with
      mu := mu
      Pk := fun c => cell realOps (fillRows realOps rng.unit k 1 rng.seed) 0 c.val
      P := fun r c => cell realOps (fillRows realOps rng.unit k nrow rng.seed) r c.val
      sigma := fun _ i j => cell realOps (fillRows realOps rng.unit n n rng.seed) i j }
  have hi : runInit realOps rng data nrow nthreads .random (none : Option (Fin k → Row ℝ n)) = .ok s := by
    simp only [runInit, Option.isSome_none, Bool.false_eq_true, if_false]
    rw [e1]
  refine ⟨result realOps nrow 0 s, ?_, e2', (hline 1 0 (by omega) hN).2, (hline 1 0 (by omega) hN).1, ?_⟩
  · unfold softRun
    have : Driver.getInit "random" = .ok .random := rfl
    rw [this]
    dsimp only
    rw [if_neg (by omega), hi]
    rfl
  · intro r hr
    have hrN : r < nrow := by
      have : r + 1 ≤ (r + 1) * k := Nat.le_mul_of_pos_right _ hk
      omega
    have hcell : ∀ c : Fin k, (result realOps nrow 0 s).resp.getD (r * k + c) 0 =
        cell realOps (fillRows realOps rng.unit k nrow rng.seed) r c.val := by
      intro c
      have hlt' : r * k + c.val < nrow := by
        have := c.isLt
        rw [Nat.succ_mul] at hr
        omega
      have hdiv : (r * k + c.val) / k = r := by
        rw [Nat.mul_comm, Nat.mul_add_div hk, Nat.div_eq_of_lt c.isLt, Nat.add_zero]
      have hmod : (r * k + c.val) % k = c.val := by
        rw [Nat.mul_comm, Nat.mul_add_mod, Nat.mod_eq_of_lt c.isLt]
      rw [List.getD_eq_getElem?_getD]
      simp only [result, List.getElem?_map, List.getElem?_range hlt', Option.map_some, Option.getD_some, hk,
        dif_pos]
      simp only [s, hdiv, hmod]
    simp only [hcell]
    exact hline nrow r hrN hrN

/-! ### The hypotheses are met -/

/-- Rows 0, 1, 2, … with one column. -/
noncomputable def exData (r : Nat) : Row Ext 1 := fun _ => .fin r

/-- An engine that counts modulo 4 and always draws one half. -/
noncomputable def exRng : Rng Ext Nat := ⟨0, fun s => (s % 4, s + 1), fun s => (.fin (1 / 2), s)⟩

/-- Four rows, two threads, two components: `C83_violated` applies to the call with the initialisation
`random`, and the first responsibility is NaN. -/
example : ∃ res, softRun (k := 2) Ext.ops (fun s => (s.inv, s.dets)) exRng exData 4 2 10 (fun _ => false)
    (fun _ => List.replicate 8 0 ++ List.replicate 8 1) "random" none = .ok res ∧ res.iters = 1 ∧
    res.resp.length = 4 ∧ ∃ x, res.resp[0]? = some x ∧ Ext.cls x = .nan := by
  have hs : SchedOk 2 4 2 (fun _ => List.replicate 8 0 ++ List.replicate 8 1) := by
    intro i t ht
    have : t = 0 ∨ t = 1 := by omega
    rcases this with rfl | rfl <;> dsimp only <;> decide
  obtain ⟨res, res0, h1, -, h3, -, -, -, -, -, h9, -, h11⟩ := C83_violated (data := exData)
    (maxIters := 10) (init := "random") (given := none) (stop := fun _ => false)
    (shared := fun s : St Ext 2 1 => (s.inv, s.dets)) Ext.ieee
    (by decide) (by decide) (by decide) (by decide)
    (⟨fun s => Nat.mod_lt _ (by decide), fun s => .inr (Ext.cls_pos (by norm_num))⟩ : RngOk Ext.cls exRng 4)
    (.inr (.inr (.inr rfl))) (by decide) hs (by decide) (by decide)
  exact ⟨res, h1, h3, h9, h11⟩

/-- Four rows and one thread with two components: `C83_violated_out_of_bounds` applies. -/
example : softRun (k := 2) Ext.ops (fun s => (s.inv, s.dets)) exRng exData 4 1 10 (fun _ => false)
    (fun _ => List.replicate 16 0) "forgy" none = .error .ub :=
  C83_violated_out_of_bounds (data := exData) Ext.ieee
    (by decide) (by decide) (by decide) (by decide)
    (⟨fun s => Nat.mod_lt _ (by decide), fun s => .inr (Ext.cls_pos (by norm_num))⟩ : RngOk Ext.cls exRng 4)
    (.inr (.inr (.inl rfl))) (by decide) (by
      intro i t ht
      have : t = 0 := by omega
      subst this
      dsimp only
      decide) (by decide)

/-- The hypotheses of `C83_start_partial` are met by an engine that always draws one half. -/
example : ∃ res, softRun (k := 2) realOps (fun s => (s.inv, s.dets))
    (⟨0, fun s => (s % 4, s + 1), fun s => (1 / 2, s)⟩ : Rng ℝ Nat) (fun r (_ : Fin 1) => (r : ℝ)) 4 2 0
    (fun _ => false) (fun _ => []) "random" none = .ok res ∧ ∑ c, res.prob c = 1 := by
  obtain ⟨res, h1, -, -, h4, -⟩ := C83_start_partial (k := 2) (n := 1) (nrow := 4) (nthreads := 2)
    (rng := (⟨0, fun s => (s % 4, s + 1), fun s => (1 / 2, s)⟩ : Rng ℝ Nat))
    (data := fun r (_ : Fin 1) => (r : ℝ)) (shared := fun s => (s.inv, s.dets)) (stop := fun _ => false)
    (sched := fun _ => []) (by decide) (by decide) (by decide) (by decide)
    (fun s => Nat.mod_lt _ (by decide)) (fun s => by norm_num) (by
      intro r _
      simp only [Init.outputs, List.sum_cons, List.sum_nil]
      norm_num)
  exact ⟨res, h1, h4⟩

end Knor.Gmm
