import Verif.Model.MiniBatchDriver
import Verif.Spec.MiniBatch
import Verif.Props.MiniBatch
import Verif.Props.PrunedDriver

namespace Knor.MiniBatch

open Knor Knor.Prune Knor.Par Knor.Partition Knor.Spec

variable {R D : Type _} {k n : Nat}

/-- The scan takes the first of the nearest. -/
theorem init_first [LinearOrder D] (d : Fin k → D) (u : D) (o : Option (Fin k)) (l : List (Fin k))
    (hl : l.Pairwise (· < ·)) :
    (l.foldl (initStep d) (u, o) = (u, o) ∧ ∀ c ∈ l, u ≤ d c) ∨
    ∃ c ∈ l, l.foldl (initStep d) (u, o) = (d c, some c) ∧ (∀ c' ∈ l, d c ≤ d c') ∧
      ∀ c' ∈ l, d c' ≤ d c → c ≤ c' := by
  induction l using List.reverseRecOn with
  | nil => left; simp
  | append_singleton l a ih =>
    rw [List.pairwise_append] at hl
    obtain ⟨hl1, _, hl2⟩ := hl
    rw [List.foldl_append]
    simp only [List.foldl_cons, List.foldl_nil]
    rcases ih hl1 with ⟨h1, h2⟩ | ⟨c, hc, h1, h3, h4⟩
    · rw [h1]
      unfold initStep
      by_cases h : d a < u
      · right
        refine ⟨a, by simp, by simp [h], ?_, ?_⟩
        · intro c' hc'
          rcases List.mem_append.1 hc' with hm | hm
          · exact (lt_of_lt_of_le h (h2 c' hm)).le
          · rw [List.mem_singleton] at hm; subst hm; exact le_refl _
        · intro c' hc' hle
          rcases List.mem_append.1 hc' with hm | hm
          · exact absurd (lt_of_lt_of_le h (h2 c' hm)) (not_lt.2 hle)
          · rw [List.mem_singleton] at hm; subst hm; exact le_refl _
      · left
        refine ⟨by simp [h], ?_⟩
        intro c' hc'
        rcases List.mem_append.1 hc' with hm | hm
        · exact h2 c' hm
        · rw [List.mem_singleton] at hm; subst hm; exact not_lt.1 h
    · right
      rw [h1]
      unfold initStep
      by_cases h : d a < d c
      · refine ⟨a, by simp, by simp [h], ?_, ?_⟩
        · intro c' hc'
          rcases List.mem_append.1 hc' with hm | hm
          · exact (lt_of_lt_of_le h (h3 c' hm)).le
          · rw [List.mem_singleton] at hm; subst hm; exact le_refl _
        · intro c' hc' hle
          rcases List.mem_append.1 hc' with hm | hm
          · exact absurd (lt_of_lt_of_le h (h3 c' hm)) (not_lt.2 hle)
          · rw [List.mem_singleton] at hm; subst hm; exact le_refl _
      · refine ⟨c, by simp [hc], by simp [h], ?_, ?_⟩
        · intro c' hc'
          rcases List.mem_append.1 hc' with hm | hm
          · exact h3 c' hm
          · rw [List.mem_singleton] at hm; subst hm; exact not_lt.1 h
        · intro c' hc' hle
          rcases List.mem_append.1 hc' with hm | hm
          · exact h4 c' hm hle
          · rw [List.mem_singleton] at hm; subst hm; exact (hl2 c hc c' (by simp)).le

theorem finRange_pairwise (k : Nat) : (List.finRange k).Pairwise (· < ·) := List.pairwise_lt_finRange k

/-- With the bound `big` the scan gives the lowest-numbered nearest centroid. -/
theorem scan_first [LinearOrder D] {d : Fin k → D} {u : D} {o : Option (Fin k)} (h : ∃ c, d c < u) :
    ∃ c, ((List.finRange k).foldl (initStep d) (u, o)).2 = some c ∧ IsFirstNearest d c := by
  rcases init_first d u o (List.finRange k) (finRange_pairwise k) with ⟨_, h2⟩ | ⟨c, _, h1, h3, h4⟩
  · obtain ⟨c, hc⟩ := h
    exact absurd hc (not_lt.2 (h2 c (List.mem_finRange c)))
  · rw [h1]
    exact ⟨c, rfl, fun c' => h3 c' (List.mem_finRange _), fun c' hc' => h4 c' (List.mem_finRange _) (hc' c)⟩

/-- With the distance to the row's own centroid as the bound it gives a nearest one. -/
theorem scan_near [LinearOrder D] {d : Fin k → D} {u : D} {o : Option (Fin k)}
    (h : (∃ c, d c < u) ∨ ∃ c, o = some c ∧ u = d c) :
    ∃ c, ((List.finRange k).foldl (initStep d) (u, o)).2 = some c ∧ IsNearest d c := by
  rcases init_first d u o (List.finRange k) (finRange_pairwise k) with ⟨h1, h2⟩ | ⟨c, _, h1, h3, h4⟩
  · rcases h with ⟨c, hc⟩ | ⟨c, ho, hu⟩
    · exact absurd hc (not_lt.2 (h2 c (List.mem_finRange c)))
    · rw [h1]
      exact ⟨c, ho, fun c' => by rw [← hu]; exact h2 c' (List.mem_finRange _)⟩
  · rw [h1]
    exact ⟨c, rfl, fun c' => h3 c' (List.mem_finRange _)⟩

/-- The loop over the sampled rows moves every centroid towards its own. -/
theorem finalizeRows_towards [Field R] (data : Nat → Row R n) (a : Nat → Option (Fin k)) (eta : Fin k → R)
    (c : Fin k) (l : List Nat) : ∀ s s' : Clusters R k n, finalizeRows data a eta l s = .ok s' →
    s'.means c = towards (eta c) (s.means c) ((l.filter fun r => decide (a r = some c)).map data) := by
  induction l with
  | nil => intro s s' e; cases e; rfl
  | cons r rs ih =>
    intro s s' e
    simp only [finalizeRows] at e
    cases hc : a r with
    | none =>
      rw [hc] at e; cases e
    | some c' =>
      rw [hc] at e
      rw [ih _ _ e, List.filter_cons, hc]
      by_cases hcc : c' = c
      · subst hcc
        rw [if_pos (by simp)]
        unfold towards
        rw [List.map_cons, List.foldl_cons]
        congr 1
        unfold Clusters.scaleCentroid
        dsimp only
        rw [Function.update_self]
        funext j
        ring
      · rw [if_neg (by simpa using hcc)]
        congr 1
        unfold Clusters.scaleCentroid
        dsimp only
        rw [Function.update_of_ne (Ne.symm hcc)]

theorem map_filter_congr {α : Type _} {l : List Nat} {p q : Nat → Bool} {f g : Nat → α} (h : ∀ r ∈ l, p r = q r)
    (hd : ∀ r ∈ l, f r = g r) : (l.filter p).map f = (l.filter q).map g := by
  rw [List.filter_congr h]
  apply List.map_congr_left
  intro r hr
  exact hd r (List.mem_filter.1 hr).1

/-- A state as the specification sees it. -/
def snap (s : PState R D k n) : Snap R k n := ⟨s.cltrs.means, fun r => (s.slots r).assign⟩

/-- Every iteration is one of mini-batch k-means. -/
theorem iteration_mbStep [Field R] [LinearOrder R] [IsStrictOrderedRing R] [LinearOrder D]
    {dist : Row R n → Row R n → D} {big : D} {data data' : Nat → Row R n} {N nt : Nat} {draw : Nat → R} {frac : R}
    {sched : List Nat} {s s' : PState R D k n} (hdata : ∀ r, r < N → data r = data' r)
    (hn : 0 < N) (hnt : 0 < nt) (hlt : N + 8192 < 4294967296)
    (hc : Complete (effThreads nt N) (taskRows N nt) sched)
    (h : iteration dist big data N nt draw frac sched s = .ok s') (first : Prop)
    (hr1 : ∀ r, r < N → (∃ c, dist (data r) (s.cltrs.means c) < (s.slots r).ub) ∨
      ∃ c, (s.slots r).assign = some c ∧ (s.slots r).ub = dist (data r) (s.cltrs.means c))
    (hr2 : first → ∀ r, r < N → ∃ c, dist (data r) (s.cltrs.means c) < (s.slots r).ub) :
    MbStep dist N data' (fun r => draw r ≤ frac) first (snap s) (snap s') := by
  obtain ⟨h1, _, _, h4⟩ := iteration_closed hn hnt hlt hc h
  refine ⟨fun r hr hd => ?_, fun r hr hd => ?_, fun c => ?_⟩
  · have ha := (h1 r hr).1
    unfold mbSlot at ha
    rw [if_neg (not_lt.2 hd)] at ha
    dsimp only at ha
    obtain ⟨c, e1, e2⟩ := scan_near (hr1 r hr)
    refine ⟨c, by rw [← e1]; exact ha, by rw [← hdata r hr]; exact e2, fun hf => ?_⟩
    obtain ⟨c', e3, e4⟩ := scan_first (o := (s.slots r).assign) (hr2 hf r hr)
    rw [e1] at e3
    rw [Option.some.inj e3, ← hdata r hr]
    exact e4
  · have ha := (h1 r hr).1
    unfold mbSlot at ha
    rw [if_pos (not_le.1 hd)] at ha
    exact ha
  · rw [show (snap s').cents c = s'.cltrs.means c from rfl, finalizeRows_towards data _ _ c _ _ _ h4]
    unfold rates
    rw [tally_eq, List.filter_filter]
    congr 1
    refine map_filter_congr (fun r _ => ?_) (fun r hr => hdata r (List.mem_range.1 hr))
    have key : ∀ (p : Prop) (i : Decidable p), @decide p i = true ↔ p := fun p i => @decide_eq_true_iff p i
    refine Bool.eq_iff_iff.2 ⟨fun hx => ?_, fun hx => ?_⟩
    · rw [Bool.and_eq_true, decide_eq_true_iff, decide_eq_true_iff] at hx
      exact (key _ _).2 ⟨hx.2, hx.1⟩
    · have hx' := (key _ _).1 hx
      rw [Bool.and_eq_true, decide_eq_true_iff, decide_eq_true_iff]
      exact ⟨hx'.2, hx'.1⟩

/-- A whole run in terms of the specification. -/
theorem run_traced [Field R] [LinearOrder R] [IsStrictOrderedRing R] [Field D] [LinearOrder D]
    {dist : Row R n → Row R n → D} {big : D} {norm : (Fin k → Row R n) → R} {data data' : Nat → Row R n}
    {N nt mb : Nat} {draw : Nat → Nat → R} {tol : R} {maxIters : Nat} {sched : Nat → List Nat} {schedEnd : List Nat}
    {s0 : PState R D k n} (hdata : ∀ r, r < N → data r = data' r)
    (hn : 0 < N) (hnt : 0 < nt) (hlt : N + 8192 < 4294967296) (hk : 0 < k)
    (hc : ∀ i, Complete (effThreads nt N) (taskRows N nt) (sched i))
    (hce : Complete (effThreads nt N) (taskRows N nt) schedEnd)
    (hbig : ∀ r, r < N → ∀ c, ∀ y ∈ convexHull R ({s0.cltrs.means c} ∪ {x | ∃ r, r < N ∧ x = data r}),
      dist (data r) y < big)
    (hs : ∀ r, r < N → (s0.slots r).ub = big ∨ ∃ c, (s0.slots r).assign = some c)
    (hrows : ∀ r, r < N → (∃ c, dist (data r) (s0.cltrs.means c) < (s0.slots r).ub) ∨
      ∃ c, (s0.slots r).assign = some c ∧ (s0.slots r).ub = dist (data r) (s0.cltrs.means c))
    (first : Prop) (hfirst : first → ∀ r, r < N → (s0.slots r).ub = big) :
    ∃ (res : Nat × PState R D k n) (t : Nat) (tr : Nat → Snap R k n) (f : R),
      run dist big norm data N nt mb draw tol maxIters sched schedEnd s0 = .ok res ∧ tr 0 = snap s0 ∧
      f * (N : R) = (if mb < min nt N then 1 else (mb : R)) ∧
      (∀ i, i < t → MbStep dist N data' (fun r => draw i r ≤ f) (0 < i ∨ first) (tr i) (tr (i + 1))) ∧
      (∀ i, i + 1 < t → tol ≤ movedBy norm tr i) ∧
      ((∃ j, t = j + 1 ∧ j < maxIters ∧ movedBy norm tr j < tol ∧ res.1 = j) ∨
        (t = maxIters ∧ res.1 = maxIters ∧ ∀ i, i < t → tol ≤ movedBy norm tr i)) ∧
      res.2.cltrs.means = (tr t).cents ∧
      (∀ c, res.2.cltrs.means c ∈ convexHull R ({s0.cltrs.means c} ∪ {x | ∃ r, r < N ∧ x = data' r})) ∧
      (∀ r, r < N → ∃ c, (res.2.slots r).assign = some c ∧
        IsNearest (fun c => dist (data' r) (res.2.cltrs.means c)) c ∧
        (0 < t ∨ first → IsFirstNearest (fun c => dist (data' r) (res.2.cltrs.means c)) c)) ∧
      (∀ c, res.2.counts c = (Spec.count N (fun r => (res.2.slots r).assign) c : Int)) ∧
      ∑ c, res.2.counts c = (N : Int) := by
  obtain ⟨⟨i, s⟩, hl⟩ := loop_ok (norm := norm) (data := data) (draw := draw)
    (frac := perctg mb (effThreads nt N) N) (tol := tol) hn hnt hlt hc hk s0.cltrs.means hbig
    maxIters 0 s0 (fun c => subset_convexHull R _ (Or.inl rfl)) hs
  obtain ⟨t, st, h1, h2, h3, h4, h5, h6⟩ := loop_trace hn hnt hlt hc maxIters 0 s0 (i, s) hl
  have h3' : st t = s := h3
  have hull : ∀ i, i ≤ t → ∀ c, (st i).cltrs.means c ∈
      convexHull R ({s0.cltrs.means c} ∪ {x | ∃ r, r < N ∧ x = data r}) := by
    intro i
    induction i with
    | zero => intro _ c; rw [h2]; exact subset_convexHull R _ (Or.inl rfl)
    | succ i ih =>
      intro hi c
      exact iteration_hull hn hnt hlt (hc (0 + i)) (h4 i (by omega)) _ c (ih (by omega) c)
  have hub : ∀ i, i ≤ t → 0 < i ∨ first → ∀ r, r < N → ((st i).slots r).ub = big := by
    intro i hi h r hr
    cases i with
    | zero => rw [h2]; exact hfirst (h.resolve_left (lt_irrefl _)) r hr
    | succ i => exact ((iteration_closed hn hnt hlt (hc (0 + i)) (h4 i (by omega))).1 r hr).2
  have hlow : ∀ i, i ≤ t → 0 < i ∨ first → ∀ r, r < N →
      ∃ c, dist (data r) ((st i).cltrs.means c) < ((st i).slots r).ub := fun i hi h r hr =>
    ⟨⟨0, hk⟩, by rw [hub i hi h r hr]; exact hbig r hr _ _ (hull i hi _)⟩
  have hany : ∀ i, i ≤ t → ∀ r, r < N → (∃ c, dist (data r) ((st i).cltrs.means c) < ((st i).slots r).ub) ∨
      ∃ c, ((st i).slots r).assign = some c ∧ ((st i).slots r).ub = dist (data r) ((st i).cltrs.means c) := by
    intro i hi r hr
    cases i with
    | zero => rw [h2]; exact hrows r hr
    | succ i => exact .inl (hlow (i + 1) hi (.inl (by omega)) r hr)
  obtain ⟨s', hf, hcl, hcnt, hnear⟩ := finish_spec (dist := dist) (big := big) (data := data) (s := s)
    hn hnt hlt hce (by rw [← h3']; exact hany t (le_refl _))
  have hN : (N : R) ≠ 0 := by exact_mod_cast hn.ne'
  have hset : {x : Row R n | ∃ r, r < N ∧ x = data r} = {x | ∃ r, r < N ∧ x = data' r} := by
    ext x
    exact ⟨fun ⟨r, hr, e⟩ => ⟨r, hr, by rw [← hdata r hr]; exact e⟩, fun ⟨r, hr, e⟩ => ⟨r, hr, by rw [hdata r hr]; exact e⟩⟩
  have hnear' : ∀ r, r < N → ∃ c, (s'.slots r).assign = some c := fun r hr => by
    obtain ⟨c, h, _⟩ := hnear r hr
    exact ⟨c, h⟩
  refine ⟨(i, s'), t, fun i => snap (st i), perctg mb (effThreads nt N) N, ?_, ?_, ?_, ?_, ?_, ?_, ?_, ?_, ?_, hcnt, ?_⟩
  · unfold run
    rw [hl]
    simp only [hf]
  · dsimp only
    rw [h2]
  · unfold perctg
    rw [div_mul_cancel₀ _ hN]
    have : effThreads nt N = min nt N := by rfl
    rw [this]
    split <;> simp
  · intro i hi
    have h := h4 i hi
    rw [Nat.zero_add] at h
    exact iteration_mbStep hdata hn hnt hlt (hc i) h _ (hany i (by omega)) (fun hh => hlow i (by omega) hh)
  · exact h5
  · rcases h6 with ⟨j, e1, e2, e3⟩ | ⟨e1, e2, e3⟩
    · exact .inl ⟨j, e1, by omega, e2, by rw [Nat.zero_add] at e3; exact e3⟩
    · exact .inr ⟨e1, by rw [Nat.zero_add] at e2; exact e2, e3⟩
  · dsimp only
    rw [hcl, ← h3']
    rfl
  · intro c
    dsimp only
    rw [hcl, ← h3', ← hset]
    exact hull t (le_refl _) c
  · intro r hr
    obtain ⟨c, e1, e2⟩ := hnear r hr
    dsimp only
    rw [hcl]
    refine ⟨c, e1, by rw [← hdata r hr]; exact e2, fun hh => ?_⟩
    have ha := finish_assign hn hnt hlt hce (by rw [← h3']; exact hany t (le_refl _)) hf r hr
    have hlt' := hlow t (le_refl _) hh r hr
    rw [h3'] at hlt'
    obtain ⟨c', e3, e4⟩ := scan_first (o := (s.slots r).assign) hlt'
    rw [← ha, e1] at e3
    rw [Option.some.inj e3, ← hdata r hr]
    exact e4
  · have := Kmeans.sum_count_of_all_assigned N (fun r => (s'.slots r).assign) hnear'
    show ∑ c, s'.counts c = (N : Int)
    rw [show (∑ c, s'.counts c) = ∑ c, (Spec.count N (fun r => (s'.slots r).assign) c : Int) from
      Finset.sum_congr rfl fun c _ => hcnt c, ← Nat.cast_sum, this]

end Knor.MiniBatch
