import Verif.Model.Omp
import Verif.Lemmas.Init
import Verif.Lemmas.PruneRun

namespace Knor.Omp

open Knor Knor.Par Knor.Partition Knor.Spec

variable {R D S : Type _} {k n : Nat}

/-! ### The rows of the threads -/

theorem split_rows {N T : Nat} {owner : Nat → Nat} (ho : ∀ r, r < N → owner r < T) :
    Split N T (rows N T owner) := by
  refine ⟨?_, fun t ht => by unfold rows; rw [if_neg (by omega)]⟩
  rw [List.perm_ext_iff_of_nodup]
  · intro r
    simp only [List.mem_flatMap, List.mem_range]
    constructor
    · rintro ⟨t, ht, hr⟩
      unfold rows at hr
      rw [if_pos ht] at hr
      simp at hr; exact hr.1
    · intro hr
      exact ⟨owner r, ho r hr, by unfold rows; rw [if_pos (ho r hr)]; simpa using hr⟩
  · rw [List.nodup_flatMap]
    constructor
    · intro t _
      unfold rows
      split
      · exact List.nodup_range.filter _
      · exact List.nodup_nil
    · refine List.Pairwise.imp ?_ List.nodup_range
      intro a b hab r h1 h2
      unfold rows at h1 h2
      split at h1
      · split at h2
        · simp only [List.mem_filter, decide_eq_true_eq] at h1 h2
          exact hab (h1.2.symm.trans h2.2)
        · simp at h2
      · simp at h1
  · exact List.nodup_range

/-! ### Unpruned -/

theorem merge_of_update [Field R] {N T : Nat} {acc : Nat → Kmeans.Acc R k n}
    {a : Nat → Option (Fin k)} {x : Kmeans.KState R k n}
    (h : Kmeans.updateClusters N T acc a = .ok x) : merge N T acc a 0 = .ok x := by
  unfold Kmeans.updateClusters at h
  unfold merge
  simp only at h ⊢
  split at h
  · simp at h
  · rename_i h1
    rw [if_neg h1]
    split at h
    · simp at h
    · exact h

theorem emStep_closed [Field R] [LinearOrder D] {dist : Row R n → Row R n → D} {big : D}
    {data : Nat → Row R n} {N T : Nat} {todo : Nat → List Nat} {sched : List Nat}
    {s : Kmeans.KState R k n} (hn : 0 < N) (hsp : Split N T todo) (hc : Complete T todo sched)
    (hs : s.changed = 0)
    (hb : ∀ r, r < N → ∃ c, dist (data r) (s.cltrs.means c) < big) :
    emStep dist big data N T todo sched s =
      let new := Kmeans.newAssign dist big data N s.cltrs.means s.assign
      .ok { cltrs := Kmeans.clustersOf N data new
            assign := new
            counts := fun c => (Spec.count N new c : Int)
            changed := numChanged N s.assign new } := by
  obtain ⟨c0, _⟩ := hb 0 hn
  set new := Kmeans.newAssign dist big data N s.cltrs.means s.assign with hnewdef
  have hnew : ∀ r, r < N → new r = some ((new r).getD c0) := by
    intro r hr
    obtain ⟨c, hc⟩ := Kmeans.emScan_exists (hb r hr)
    have : new r = some c := by rw [hnewdef]; unfold Kmeans.newAssign; rw [if_pos hr]; exact hc
    rw [this]; rfl
  obtain ⟨p, h1, _, h3, h4, h5⟩ := run_complete (μ := Option (Fin k)) (α := Kmeans.Acc R k n)
    (f := Kmeans.emRow dist big data s.cltrs.means) (T := T)
    (s0 := { mem := s.assign, acc := fun _ => Kmeans.Acc.init, todo := todo })
    (newMem := new)
    (upd := fun r a =>
      { changed := if new r ≠ s.assign r then a.changed + 1 else a.changed
        loc := a.loc.addMember (data r) ((new r).getD c0) })
    hsp.disjoint hsp.idle
    (by
      intro t r a hr
      have hrN : r < N := (hsp.mem_iff r).1 ⟨t, hr⟩
      have e : Kmeans.emScan big (fun c => dist (data r) (s.cltrs.means c)) = new r := by
        rw [hnewdef]; unfold Kmeans.newAssign; rw [if_pos hrN]
      unfold Kmeans.emRow
      simp only [e]
      rw [hnew r hrN]
      simp)
    hc
  have hmem : p.mem = new := by
    funext r
    by_cases hr : r < N
    · obtain ⟨t, ht⟩ := (hsp.mem_iff r).2 hr
      exact h3 t r ht
    · rw [h4 r fun t ht => hr ((hsp.mem_iff r).1 ⟨t, ht⟩)]
      simp [hnewdef, Kmeans.newAssign, hr]
  unfold emStep
  rw [h1]
  simp only
  rw [hmem, hs]
  exact merge_of_update
    (Kmeans.updateClusters_closed hsp data (fun r => (new r).getD c0) s.assign new hnew p.acc h5)

theorem emStep_aborts [Field R] [LinearOrder D] {dist : Row R n → Row R n → D} {big : D}
    {data : Nat → Row R n} {N T : Nat} {todo : Nat → List Nat} {sched : List Nat}
    {s : Kmeans.KState R k n} (hsp : Split N T todo) (hc : Complete T todo sched)
    {r0 : Nat} (hr0 : r0 < N) (hb : ∀ c, ¬ dist (data r0) (s.cltrs.means c) < big) :
    emStep dist big data N T todo sched s = .error .assertFail := by
  obtain ⟨t0, ht0⟩ := (hsp.mem_iff r0).2 hr0
  have := run_fails (μ := Option (Fin k)) (α := Kmeans.Acc R k n)
    (f := Kmeans.emRow dist big data s.cltrs.means) (T := T)
    (s0 := { mem := s.assign, acc := fun _ => Kmeans.Acc.init, todo := todo })
    (newMem := Kmeans.newAssign dist big data N s.cltrs.means s.assign)
    (upd := fun r a =>
      match Kmeans.emScan big (fun c => dist (data r) (s.cltrs.means c)) with
      | none => a
      | some c =>
        { changed := if some c ≠ s.assign r then a.changed + 1 else a.changed
          loc := a.loc.addMember (data r) c })
    (e := .assertFail)
    (good := fun r => Kmeans.emScan big (fun c => dist (data r) (s.cltrs.means c)) ≠ none)
    hsp.disjoint hsp.idle
    (by
      intro t r a hr hg
      have hrN : r < N := (hsp.mem_iff r).1 ⟨t, hr⟩
      unfold Kmeans.emRow Kmeans.newAssign
      simp only [hrN, if_true]
      cases he : Kmeans.emScan big (fun c => dist (data r) (s.cltrs.means c)) with
      | none => exact absurd he hg
      | some c => rfl)
    (by
      intro t r a hr hg
      have he : Kmeans.emScan big (fun c => dist (data r) (s.cltrs.means c)) = none := not_not.1 hg
      unfold Kmeans.emRow
      simp only [he])
    ht0 (by simpa using (Kmeans.emScan_none_iff _ _).2 hb) hc
  unfold emStep
  rw [this]

/-- An OpenMP step computes what a pthread iteration computes. -/
theorem emStep_eq [Field R] [LinearOrder D] {dist : Row R n → Row R n → D} {big : D}
    {data : Nat → Row R n} {N nt T : Nat} {todo : Nat → List Nat} {sched sched' : List Nat}
    {s s' : Kmeans.KState R k n} (hn : 0 < N) (hnt : 0 < nt) (hlt : N < 4294967296)
    (hsp : Split N T todo) (hc : Complete T todo sched)
    (hc' : Complete (effThreads nt N) (Kmeans.threadRows N nt) sched')
    (hs : s.changed = 0) (hm : s.cltrs.means = s'.cltrs.means) (ha : s.assign = s'.assign) :
    emStep dist big data N T todo sched s = Kmeans.iteration dist big data N nt sched' s' := by
  by_cases hb : ∀ r, r < N → ∃ c, dist (data r) (s.cltrs.means c) < big
  · rw [emStep_closed hn hsp hc hs hb,
      Kmeans.iteration_closed hn hnt hlt hc' (by rw [← hm]; exact hb), hm, ha]
  · simp only [not_forall, not_exists] at hb
    obtain ⟨r0, hr0, hb⟩ := hb
    rw [emStep_aborts hsp hc hr0 hb, Kmeans.iteration_aborts hnt hlt hc' hr0
      (by rw [← hm]; exact hb)]

theorem loop_eq [Field R] [LinearOrder R] [LinearOrder D] {dist : Row R n → Row R n → D}
    {big : D} {data : Nat → Row R n} {N nt T M : Nat} {owner : Nat → Nat → Nat} {tol : R}
    {sched sched' : Nat → List Nat} (hn : 0 < N) (hnt : 0 < nt) (hlt : N < 4294967296)
    (ho : ∀ i r, r < N → owner i r < T)
    (hc : ∀ i, Complete T (rows N T (owner i)) (sched i))
    (hc' : ∀ i, Complete (effThreads nt N) (Kmeans.threadRows N nt) (sched' i)) (hM : 0 < M)
    (fuel : Nat) : ∀ iter (s s' : Kmeans.KState R k n), s.changed = 0 →
      s.cltrs.means = s'.cltrs.means → (iter = 1 ∨ s.assign = s'.assign) →
      (iter = 1 → 0 < fuel) → (iter ≠ 1 → s.counts = s'.counts) →
      (loop dist big data N T owner tol (M + 1) sched fuel iter s).map report =
        (Kmeans.loop dist big data N nt tol M sched' fuel iter s').map report := by
  induction fuel with
  | zero =>
    intro iter s s' h0 hm ha hf hct
    have h1 : iter ≠ 1 := fun h => by simpa using hf h
    unfold loop Kmeans.loop
    simp only [Except.map, report, hm, ha.resolve_left h1, hct h1]
  | succ fuel ih =>
    intro iter s s' h0 hm ha hf hct
    unfold loop Kmeans.loop
    by_cases hg : iter < M + 1
    · rw [if_pos hg, if_pos (show iter ≤ M ∧ 0 < M from ⟨by omega, hM⟩)]
      simp only
      rw [emStep_eq (s' := if iter = 1 then { s' with assign := fun _ => none } else s')
        (sched' := sched' iter) (nt := nt) hn hnt hlt (split_rows (ho iter)) (hc iter) (hc' iter)
        (by split <;> exact h0)
        (by split <;> exact hm) (by
          by_cases h1 : iter = 1
          · rw [if_pos h1, if_pos h1]
          · rw [if_neg h1, if_neg h1]; exact ha.resolve_left h1)]
      cases Kmeans.iteration dist big data N nt (sched' iter)
        (if iter = 1 then { s' with assign := fun _ => none } else s') with
      | error e => rfl
      | ok s2 =>
        simp only
        by_cases hcv : Kmeans.convTest N tol s2.changed = true
        · rw [if_pos hcv, if_pos hcv]
        · rw [if_neg hcv, if_neg hcv]
          by_cases hz : iter = 0
          · subst hz
            rcases Nat.eq_zero_or_pos fuel with hfu | hfu
            · subst hfu
              unfold loop Kmeans.loop
              simp only [Except.map, report]
            · exact ih 1 _ _ rfl rfl (Or.inl rfl) (fun _ => hfu) (fun h => absurd rfl h)
          · exact ih (iter + 1) _ _ rfl rfl (Or.inr rfl) (fun h => by omega) (fun _ => rfl)
    · rw [if_neg hg, if_neg (by omega)]
      have h1 : iter ≠ 1 := by omega
      simp only [Except.map, report, hm, ha.resolve_left h1, hct h1]

theorem run_eq [Field R] [LinearOrder R] [LinearOrder D] {dist : Row R n → Row R n → D}
    {big : D} {data : Nat → Row R n} {N nt T M : Nat} {owner : Nat → Nat → Nat} {tol : R}
    {sched sched' : Nat → List Nat} (hn : 0 < N) (hnt : 0 < nt) (hlt : N < 4294967296)
    (ho : ∀ i r, r < N → owner i r < T)
    (hc : ∀ i, Complete T (rows N T (owner i)) (sched i))
    (hc' : ∀ i, Complete (effThreads nt N) (Kmeans.threadRows N nt) (sched' i)) (hM : 0 < M)
    (s s' : Kmeans.KState R k n) (hm : s.cltrs.means = s'.cltrs.means) :
    (run dist big data N T owner tol (M + 1) sched s).map report =
      (Kmeans.run dist big data N nt tol M sched' s').map report := by
  unfold run Kmeans.run
  rw [if_pos (by omega), if_pos hM]
  exact loop_eq hn hnt hlt ho hc hc' hM (M + 1) 1 _ _ rfl hm (Or.inl rfl) (fun _ => by omega)
    (fun h => absurd rfl h)

/-! ### Initialisations -/

theorem forgyLoop_eq (draw : S → Nat × S) {data : Nat → Row R n} {N nt : Nat} (hnt : 0 < nt)
    (hlt : N < 4294967296) (hd : ∀ s, (draw s).1 < N) (l : List (Fin k)) :
    ∀ s (c : Clusters R k n), Init.forgyLoop draw data N nt l s c = .ok (forgyLoop draw data l s c) := by
  induction l with
  | nil => intro s c; rfl
  | cons a l ih =>
    intro s c
    unfold Init.forgyLoop forgyLoop
    rw [Init.thdRow_ok hnt (hd s) hlt]
    exact ih _ _

theorem randomLoop_eq [Add R] (draw : S → Fin k × S) {data : Nat → Row R n}
    {N nt : Nat} (hnt : 0 < nt) (hlt : N < 4294967296) (l : List Nat) (hl : ∀ r ∈ l, r < N) :
    ∀ s (c : Clusters R k n) a,
      Init.randomLoop draw data N nt l s c a = .ok (randomLoop draw data l s c a) := by
  induction l with
  | nil => intro s c a; rfl
  | cons r l ih =>
    intro s c a
    unfold Init.randomLoop randomLoop
    rw [Init.thdRow_ok hnt (hl r (by simp)) hlt]
    exact ih (fun x hx => hl x (by simp [hx])) _ _ _

theorem random_eq [Field R] (draw : S → Fin k × S) {data : Nat → Row R n}
    {N nt : Nat} (hnt : 0 < nt) (hlt : N < 4294967296) (s : S) (c : Clusters R k n) (a) :
    Init.random draw s data N nt c a =
      .ok ((randomLoop draw data (List.range N) s c a).1.finalizeAll,
        (randomLoop draw data (List.range N) s c a).2) := by
  unfold Init.random
  rw [randomLoop_eq draw hnt hlt (List.range N) (fun r hr => List.mem_range.1 hr)]

theorem kppPass_eq [AddCommMonoid D] [LinearOrder D] {dist : Row R n → Row R n → D}
    {data : Nat → Row R n} {N T T' : Nat} {todo todo' : Nat → List Nat} {sched sched' : List Nat}
    {ci : Fin k} {s : Init.Kpp R D k n} (hsp : Split N T todo) (hc : Complete T todo sched)
    (hsp' : Split N T' todo') (hc' : Complete T' todo' sched') :
    Init.kppPass dist data T todo sched ci s = Init.kppPass dist data T' todo' sched' ci s := by
  obtain ⟨a, t, e, h1, h2, h3, h4⟩ := Init.kppPass_spec (dist := dist) (data := data) (ci := ci)
    (s := s) hsp hc
  obtain ⟨a', t', e', h1', h2', h3', h4'⟩ := Init.kppPass_spec (dist := dist) (data := data)
    (ci := ci) (s := s) hsp' hc'
  have hsl : a.slots = a'.slots := by
    funext r
    by_cases hr : r < N
    · rw [h2 r hr, h2' r hr]
    · rw [h3 r (by omega), h3' r (by omega)]
  have : a = a' := by
    cases a; cases a'; simp only at *; rw [h1, h1', hsl]
  rw [e, e', h4, h4', this]

theorem select_mem [Zero D] [Sub D] [LE D] [DecidableLE D] (d : Nat → D) (l : List Nat) :
    ∀ x r, (Init.select d l x).1 = some r → r ∈ l := by
  induction l with
  | nil => intro x r h; simp [Init.select] at h
  | cons a l ih =>
    intro x r h
    unfold Init.select at h
    split at h
    · simp only [Option.some.injEq] at h; simp [h]
    · exact List.mem_cons_of_mem _ (ih _ _ h)

theorem kppLoop_eq [Field D] [LinearOrder D] {dist : Row R n → Row R n → D}
    {data : Nat → Row R n} {N nt T : Nat} {owner : Nat → Nat → Nat} {sched sched' : Nat → List Nat}
    {u : Nat → D} {T' : Nat} {todo' : Nat → List Nat} (hnt : 0 < nt) (hlt : N < 4294967296)
    (ho : ∀ i r, r < N → owner i r < T)
    (hc : ∀ i, Complete T (rows N T (owner i)) (sched i))
    (hsp' : Split N T' todo') (hc' : ∀ i, Complete T' todo' (sched' i)) (l : List (Fin k)) :
    ∀ ci (s : Init.Kpp R D k n), kppLoop dist data N T owner sched u l ci s =
      Init.kppLoop dist data N nt T' todo' sched' u l ci s := by
  induction l with
  | nil =>
    intro ci s
    unfold kppLoop Init.kppLoop
    rw [kppPass_eq (split_rows (ho ci)) (hc ci) hsp' (hc' ci)]
    cases Init.kppPass dist data T' todo' (sched' ci) ci s <;> rfl
  | cons c l ih =>
    intro ci s
    unfold kppLoop Init.kppLoop
    rw [kppPass_eq (split_rows (ho ci)) (hc ci) hsp' (hc' ci)]
    cases hp : Init.kppPass dist data T' todo' (sched' ci) ci s with
    | error e => rfl
    | ok q =>
      obtain ⟨s', total⟩ := q
      simp only
      cases hsel : (Init.select (fun r => (s'.slots r).dist) (List.range N)
          (Init.threshold total (u ci))).1 with
      | none => simp only [ih]
      | some r =>
        have hr := List.mem_range.1 (select_mem _ _ _ _ hsel)
        simp only
        rw [Init.thdRow_ok hnt hr hlt]
        simp only [ih]

theorem kpp_eq [Field D] [LinearOrder D] {dist : Row R n → Row R n → D}
    {data : Nat → Row R n} {N nt T : Nat} {owner : Nat → Nat → Nat} {sched sched' : Nat → List Nat}
    {u : Nat → D} {T' : Nat} {todo' : Nat → List Nat} (hnt : 0 < nt) (hlt : N < 4294967296)
    (ho : ∀ i r, r < N → owner i r < T)
    (hc : ∀ i, Complete T (rows N T (owner i)) (sched i))
    (hsp' : Split N T' todo') (hc' : ∀ i, Complete T' todo' (sched' i)) {first : Nat}
    (hf : first < N) (s : Init.Kpp R D k n) : kpp dist data N T owner sched first u s =
      Init.kpp dist data N nt T' todo' sched' first u s := by
  unfold kpp Init.kpp
  rw [Init.thdRow_ok hnt hf hlt]
  cases List.finRange k with
  | nil => rfl
  | cons c l => exact kppLoop_eq hnt hlt ho hc hsp' hc' l c _

/-! ### Pruned -/

theorem emStepP_general [Field R] [Field D] [LinearOrder D]
    {dist eucl : Row R n → Row R n → D} {big : D} {data : Nat → Row R n} {N T : Nat}
    {todo : Nat → List Nat} {pi : Bool} {sched : List Nat} {s : Prune.PState R D k n}
    (hsp : Split N T todo) (hc : Complete T todo sched)
    {slots : Nat → Prune.Slot D k}
    (h1 : ∀ r, r < N → Prune.slotStep dist big data s.view pi r (s.slots r) = .ok (slots r))
    (h2 : ∀ r, N ≤ r → slots r = s.slots r)
    {merged : Clusters R k n} {chg : Nat}
    (hm : merged.complete = (if pi then Clusters.empty else s.cltrs.unfinalizeAll).complete ∧
      (∀ c j, merged.means c j = (if pi then Clusters.empty else s.cltrs.unfinalizeAll).means c j +
        ∑ r ∈ Finset.range N, if pi then (if (slots r).assign = some c then data r j else 0)
        else (if (slots r).assign = some c then data r j else 0)
          - (if (s.slots r).assign = some c then data r j else 0)) ∧
      (∀ c, merged.num c = (if pi then Clusters.empty else s.cltrs.unfinalizeAll).num c +
        ∑ r ∈ Finset.range N, if pi then (if (slots r).assign = some c then 1 else 0)
        else (if (slots r).assign = some c then 1 else 0)
          - (if (s.slots r).assign = some c then 1 else 0)) ∧
      chg = s.changed + ∑ r ∈ Finset.range N,
        if pi then 1 else if (slots r).assign ≠ (s.slots r).assign then 1 else 0) :
    emStepP dist eucl big data N T todo pi sched s =
      if (List.finRange k).foldl (fun m c => m + merged.finalizeAll.num c) (0 : Int) ≠ N then
        .error .assertFail
      else .ok
        { cltrs := merged.finalizeAll
          prevMeans := if pi then s.prevMeans else s.cltrs.means
          prevDist := fun c => eucl (merged.finalizeAll.means c)
            ((if pi then s.prevMeans else s.cltrs.means) c)
          sval := s.sval, dm := s.dm, slots := slots
          counts := merged.finalizeAll.num, changed := chg } := by
  obtain ⟨p, e, q1, q2, q3⟩ := run_det (α := Kmeans.Acc R k n)
    (f := Prune.emRow dist big data s.view pi) (g := Prune.slotStep dist big data s.view pi)
    (h := Prune.accStep data pi) (fun r m a => by
      rw [Prune.emRow_eq]; cases Prune.slotStep dist big data s.view pi r m <;> rfl)
    (s0 := { mem := s.slots, acc := fun _ => Kmeans.Acc.init, todo := todo })
    hsp hc (fun r hr => ⟨_, h1 r hr⟩)
  have hmem : p.mem = slots := by
    funext r
    by_cases hr : r < N
    · have := q1 r hr
      rw [h1 r hr] at this
      simp only [Except.ok.injEq] at this
      exact this.symm
    · rw [q2 r (by omega), h2 r (by omega)]
  have hdelta := fun r (hr : r < N) => Prune.accStep_delta data pi r (s.slots r) (p.mem r)
    (by rw [hmem]; exact (Prune.slotStep_ok (h1 r hr)).1) (Prune.slotStep_ok (h1 r hr)).2
  obtain ⟨m1, m2, m3, m4⟩ := Kmeans.merge_delta hsp hdelta p.acc q3
    (if pi then Clusters.empty else s.cltrs.unfinalizeAll) s.changed
  have hmer : (List.range T).foldl (fun x t => Clusters.peq x (p.acc t).loc)
      (if pi then Clusters.empty else s.cltrs.unfinalizeAll) = merged := by
    apply Clusters.ext
    · funext c j; rw [m3, hm.2.1, hmem]
    · funext c; rw [m4, hm.2.2.1, hmem]
    · rw [m2, hm.1]
  unfold emStepP
  rw [e]
  simp only
  unfold Prune.updateClusters
  simp only
  rw [hmer, m1, hmem, ← hm.2.2.2]

theorem emStepP_indep [Field R] [Field D] [LinearOrder D]
    {dist eucl : Row R n → Row R n → D} {big : D} {data : Nat → Row R n} {N T T' : Nat}
    {todo todo' : Nat → List Nat} {pi : Bool} {sched sched' : List Nat} {s : Prune.PState R D k n}
    (hsp : Split N T todo) (hsp' : Split N T' todo')
    (hc : Complete T todo sched) (hc' : Complete T' todo' sched')
    (hw : pi = false → DistMatrix.WF k s.dm) :
    emStepP dist eucl big data N T todo pi sched s =
      emStepP dist eucl big data N T' todo' pi sched' s := by
  by_cases hall : ∀ r, r < N → ∃ s', Prune.slotStep dist big data s.view pi r (s.slots r) = .ok s'
  · classical
    choose f hf using hall
    let slots : Nat → Prune.Slot D k := fun r => if h : r < N then f r h else s.slots r
    have h1 : ∀ r, r < N →
        Prune.slotStep dist big data s.view pi r (s.slots r) = .ok (slots r) := by
      intro r hr; simp only [slots, hr, dif_pos]; exact hf r hr
    have h2 : ∀ r, N ≤ r → slots r = s.slots r := by
      intro r hr; simp only [slots]; rw [dif_neg (by omega)]
    let merged : Clusters R k n :=
      { means := fun c j => (if pi then Clusters.empty else s.cltrs.unfinalizeAll).means c j +
        ∑ r ∈ Finset.range N, if pi then (if (slots r).assign = some c then data r j else 0)
        else (if (slots r).assign = some c then data r j else 0)
          - (if (s.slots r).assign = some c then data r j else 0)
        num := fun c => (if pi then Clusters.empty else s.cltrs.unfinalizeAll).num c +
        ∑ r ∈ Finset.range N, if pi then (if (slots r).assign = some c then 1 else 0)
        else (if (slots r).assign = some c then 1 else 0)
          - (if (s.slots r).assign = some c then 1 else 0)
        complete := (if pi then Clusters.empty else s.cltrs.unfinalizeAll).complete }
    rw [emStepP_general (merged := merged) hsp hc h1 h2
        ⟨rfl, fun _ _ => rfl, fun _ => rfl, rfl⟩,
      emStepP_general (merged := merged) hsp' hc' h1 h2
        ⟨rfl, fun _ _ => rfl, fun _ => rfl, rfl⟩]
  · push Not at hall
    obtain ⟨r0, hr0, hbad⟩ := hall
    have key : ∀ (T : Nat) (td : Nat → List Nat) (sc : List Nat), Split N T td → Complete T td sc →
        emStepP dist eucl big data N T td pi sc s =
          .error (if pi then .assertFail else .ub) := by
      intro T td sc hs hcm
      unfold emStepP
      rw [run_det_fails (α := Kmeans.Acc R k n)
        (f := Prune.emRow dist big data s.view pi) (g := Prune.slotStep dist big data s.view pi)
        (h := Prune.accStep data pi) (fun r m a => by
          rw [Prune.emRow_eq]; cases Prune.slotStep dist big data s.view pi r m <;> rfl)
        (s0 := { mem := s.slots, acc := fun _ => Kmeans.Acc.init, todo := td })
        hs hcm (e0 := if pi then .assertFail else .ub)
        (fun r e _ h => Prune.slotStep_error (v := s.view) hw h) hr0 hbad]
    rw [key T todo sched hsp hc, key T' todo' sched' hsp' hc']

/-- The initial pass does not look at the distance table. -/
theorem emStepP_init [Field R] [Field D] [LinearOrder D]
    {dist eucl : Row R n → Row R n → D} {big : D} {data : Nat → Row R n} {N T : Nat}
    {todo : Nat → List Nat} {sched : List Nat} {s : Prune.PState R D k n} (m : DistMatrix D)
    (sv : Fin k → D) :
    emStepP dist eucl big data N T todo true sched { s with dm := m, sval := sv } =
      (emStepP dist eucl big data N T todo true sched s).map fun x =>
        { x with dm := m, sval := sv } := by
  have : Prune.emRow dist big data (Prune.PState.view { s with dm := m, sval := sv }) true =
      Prune.emRow dist big data s.view true := by
    funext r m a; rfl
  unfold emStepP
  rw [this]
  simp only
  cases Par.run (Prune.emRow dist big data s.view true)
      { mem := s.slots, acc := fun _ => Kmeans.Acc.init, todo := todo } sched with
  | error e => rfl
  | ok p =>
    simp only
    unfold Prune.updateClusters
    simp only [if_true]
    split <;> rfl

/-! ### The distance table depends on the centroids only -/

theorem wf_ext {big : D} {m m' : DistMatrix D} (h : DistMatrix.WF k m) (h' : DistMatrix.WF k m')
    (hg : ∀ a b : Fin k, a < b → m.get big a b = m'.get big a b) : m = m' := by
  have hmat : m.mat = m'.mat := by
    apply List.ext_getElem (by rw [h.len, h'.len])
    intro i hi hi'
    have l1 := h.rowLen i _ (List.getElem?_eq_getElem hi)
    have l2 := h'.rowLen i _ (List.getElem?_eq_getElem hi')
    apply List.ext_getElem (by rw [l1, l2])
    intro c hc hc'
    have hik : i < k - 1 := by rw [← h.len]; exact hi
    have hik' : i < k := by omega
    have hck : i + 1 + c < k := by rw [l1] at hc; omega
    have hne : i ≠ i + 1 + c := by omega
    obtain ⟨v, e1, e2⟩ := DistMatrix.get_eq (big := big) h hik' hck hne
    obtain ⟨v', e1', e2'⟩ := DistMatrix.get_eq (big := big) h' hik' hck hne
    have := hg ⟨i, hik'⟩ ⟨i + 1 + c, hck⟩ (by rw [Fin.lt_def]; simp only; omega)
    simp only at this
    rw [e1, e1'] at this
    simp only [Except.ok.injEq] at this
    have hsl : DistMatrix.slot i (i + 1 + c) = (i, c) := by
      unfold DistMatrix.slot; rw [Prod.mk.injEq]; omega
    rw [hsl] at e2 e2'
    unfold DistMatrix.at? at e2 e2'
    simp only [List.getElem?_eq_getElem hi, List.getElem?_eq_getElem hi',
      Option.bind_some, List.getElem?_eq_getElem hc, List.getElem?_eq_getElem hc',
      Option.some.injEq] at e2 e2'
    rw [e2, e2', this]
  cases m; cases m'
  simp only [DistMatrix.mk.injEq] at *
  exact ⟨h.rows.trans h'.rows.symm, hmat⟩

theorem computeLoop_sval [Field D] [LinearOrder D] {eucl : Row R n → Row R n → D}
    {cents : Fin k → Row R n} (l : List (Fin k × Fin k)) :
    ∀ (m m' : DistMatrix D) (sv : Fin k → D) x x',
      DistMatrix.computeLoop eucl cents l (m, sv) = .ok x →
      DistMatrix.computeLoop eucl cents l (m', sv) = .ok x' → x.2 = x'.2 := by
  induction l with
  | nil =>
    intro m m' sv x x' h h'
    simp only [DistMatrix.computeLoop, Except.ok.injEq] at h h'
    rw [← h, ← h']
  | cons p l ih =>
    intro m m' sv x x' h h'
    obtain ⟨i, j⟩ := p
    unfold DistMatrix.computeLoop at h h'
    simp only at h h'
    split at h
    · simp at h
    · split at h'
      · simp at h'
      · exact ih _ _ _ _ _ h h'

theorem computeDm_indep [Field D] [LinearOrder D] {eucl : Row R n → Row R n → D} {big : D}
    (hk : 1 < k) {s : Prune.PState R D k n} (hw : DistMatrix.WF k s.dm) {m : DistMatrix D}
    (hm : DistMatrix.WF k m) (sv : Fin k → D) :
    Prune.computeDm eucl big { s with dm := m, sval := sv } = Prune.computeDm eucl big s := by
  obtain ⟨a, sa, e, w, g1, _⟩ := DistMatrix.computeLoop_spec (big := big) (eucl := eucl)
    (cents := s.cltrs.means) (DistMatrix.pairs k)
    (fun p hp => DistMatrix.mem_pairs.1 hp) s.dm (fun _ => big) hw
  obtain ⟨b, sb, e', w', g1', _⟩ := DistMatrix.computeLoop_spec (big := big) (eucl := eucl)
    (cents := s.cltrs.means) (DistMatrix.pairs k)
    (fun p hp => DistMatrix.mem_pairs.1 hp) m (fun _ => big) hm
  have hab : a = b := wf_ext (big := big) w w' fun x y hxy => by
    rw [g1 x y hxy (DistMatrix.mem_pairs.2 hxy), g1' x y hxy (DistMatrix.mem_pairs.2 hxy)]
  have hs : sa = sb := computeLoop_sval _ _ _ _ _ _ e e'
  unfold Prune.computeDm DistMatrix.computeDist
  simp only
  rw [if_neg (by omega : ¬ k ≤ 1), if_neg (by simp [hm.rows]), if_neg (by omega : ¬ k ≤ 1),
    if_neg (by simp [hw.rows]),
    e, e', hab, hs]

/-! ### The pruned loop -/

theorem loop_fuel_succ [Field R] [LinearOrder R] [Field D] [LinearOrder D]
    {dist eucl : Row R n → Row R n → D} {big : D} {data : Nat → Row R n} {N nt M : Nat}
    {tol : R} {sched : Nat → List Nat} (fuel : Nat) :
    ∀ iter (s : Prune.PState R D k n), M < iter + fuel →
      Prune.loop dist eucl big data N nt tol M sched (fuel + 1) iter s =
        Prune.loop dist eucl big data N nt tol M sched fuel iter s := by
  induction fuel with
  | zero =>
    intro iter s h
    rw [Prune.loop, Prune.loop, if_neg (by omega)]
  | succ fuel ih =>
    intro iter s h
    rw [Prune.loop]
    conv_rhs => rw [Prune.loop]
    simp only [ih (iter + 1) _ (show M < iter + 1 + fuel by omega)]

theorem loopP_eq [Field R] [LinearOrder R] [Field D] [LinearOrder D]
    {dist eucl : Row R n → Row R n → D} {big : D} {data : Nat → Row R n} {N nt T M : Nat}
    {owner : Nat → Nat → Nat} {tol : R} {sched sched' : Nat → List Nat} (hk : 1 < k)
    (hn : 0 < N) (hnt : 0 < nt) (hlt : N + 8192 < 4294967296)
    (ho : ∀ i r, r < N → owner i r < T)
    (hc : ∀ i, Complete T (rows N T (owner i)) (sched i))
    (hc' : ∀ i, Complete (effThreads nt N) (Prune.taskRows N nt) (sched' i)) (hM : 0 < M)
    (fuel : Nat) : ∀ iter (s : Prune.PState R D k n) (m : DistMatrix D) (sv : Fin k → D),
      DistMatrix.WF k s.dm → DistMatrix.WF k m →
      (loopP dist eucl big data N T owner tol (M + 1) sched fuel iter
        { s with dm := m, sval := sv }).map reportP =
      (Prune.loop dist eucl big data N nt tol M sched' fuel iter s).map reportP := by
  induction fuel with
  | zero => intro iter s m sv _ _; rfl
  | succ fuel ih =>
    intro iter s m sv hw hm
    unfold loopP Prune.loop
    by_cases hg : iter < M + 1
    · rw [if_pos hg, if_pos ⟨by omega, hM⟩, computeDm_indep hk hw hm sv]
      unfold Prune.pass
      obtain ⟨m1, sv1, e, w⟩ := Prune.computeDm_wf (eucl := eucl) (big := big) hk hw
      rw [e]
      simp only
      have hit : Prune.iteration dist eucl big data N nt false (sched' iter)
          { s with dm := m1, sval := sv1 } =
          emStepP dist eucl big data N (effThreads nt N) (Prune.taskRows N nt) false (sched' iter)
            { s with dm := m1, sval := sv1 } := rfl
      rw [hit, emStepP_indep (split_rows (ho iter)) (Prune.split_taskRows hn hnt hlt) (hc iter)
        (hc' iter) (fun _ => w)]
      cases hp : emStepP dist eucl big data N (effThreads nt N) (Prune.taskRows N nt) false
          (sched' iter) { s with dm := m1, sval := sv1 } with
      | error e => rfl
      | ok s2 =>
        simp only
        by_cases hcv : Kmeans.convTest N tol s2.changed = true
        · rw [if_pos hcv, if_pos hcv]
        · rw [if_neg hcv, if_neg hcv]
          have hw2 : DistMatrix.WF k s2.dm := by
            rw [Prune.iteration_dm (hit.trans hp)]; exact w
          exact ih (iter + 1) { s2 with changed := 0 } s2.dm s2.sval hw2 hw2
    · rw [if_neg hg, if_neg (by omega)]
      rfl

theorem runP_eq [Field R] [LinearOrder R] [Field D] [LinearOrder D]
    {dist eucl : Row R n → Row R n → D} {big : D} {data : Nat → Row R n} {N nt T M : Nat}
    {owner : Nat → Nat → Nat} {tol : R} {sched sched' : Nat → List Nat} (hk : 1 < k)
    (hn : 0 < N) (hnt : 0 < nt) (hlt : N + 8192 < 4294967296)
    (ho : ∀ i r, r < N → owner i r < T)
    (hc : ∀ i, Complete T (rows N T (owner i)) (sched i))
    (hc' : ∀ i, Complete (effThreads nt N) (Prune.taskRows N nt) (sched' i)) (hM : 0 < M)
    (s : Prune.PState R D k n) (m : DistMatrix D) (sv : Fin k → D)
    (hw : DistMatrix.WF k s.dm) (hm : DistMatrix.WF k m) :
    (runP dist eucl big data N T owner tol (M + 1) sched
      { s with dm := m, sval := sv }).map reportP =
      (Prune.run dist eucl big data N nt tol M sched' s).map reportP := by
  unfold runP Prune.run
  rw [if_pos (by omega), if_pos hM]
  have hit : Prune.iteration dist eucl big data N nt true (sched' 1) s =
      emStepP dist eucl big data N (effThreads nt N) (Prune.taskRows N nt) true (sched' 1) s := rfl
  rw [emStepP_init, emStepP_indep (split_rows (ho 1)) (Prune.split_taskRows hn hnt hlt) (hc 1)
        (hc' 1) (fun h => by simp at h), hit]
  cases hp : emStepP dist eucl big data N (effThreads nt N) (Prune.taskRows N nt) true
      (sched' 1) s with
  | error e => rfl
  | ok s1 =>
    have hw1 : DistMatrix.WF k s1.dm := by rw [Prune.iteration_dm (hit.trans hp)]; exact hw
    simp only [Except.map]
    have := loopP_eq (dist := dist) (eucl := eucl) (big := big) (data := data) (tol := tol) hk hn
      hnt hlt ho hc hc' hM (M + 1) 2 { s1 with changed := 0 } m sv hw1 hm
    rw [loop_fuel_succ M 2 _ (by omega)] at this
    exact this

end Knor.Omp
