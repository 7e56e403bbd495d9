import Verif.Model.Project
import Verif.Lemmas.Score
import Verif.Props.Xmeans

/-!
# Lemmas about the recorded distances and projections
-/

namespace Knor.Score

open Knor Hclust Xmeans Spec

variable {n : Nat}

section
variable {R : Type _} [Field R]

theorem dot_eq (x y : Row R n) : dot x y = ∑ j, x j * y j := by
  unfold dot
  have : ∀ (l : List (Fin n)) (a : R), l.foldl (fun s j => s + x j * y j) a = a + (l.map fun j => x j * y j).sum := by
    intro l
    induction l with
    | nil => simp
    | cons j l ih => intro a; simp only [List.foldl_cons, ih, List.map_cons, List.sum_cons]; ring
  rw [this, zero_add, Fin.sum_univ_def]

theorem dot_zero (x : Row R n) : dot x 0 = 0 := by rw [dot_eq]; simp

theorem dot_self_neg (x : Row R n) : dot x (-x) = -dot x x := by
  rw [dot_eq, dot_eq]; simp

theorem dot_neg_neg (x : Row R n) : dot (-x) (-x) = dot x x := by
  rw [dot_eq, dot_eq]; simp

section
variable {D : Type _} [DecidableEq R] {c : Cfg R D n} {s : St R n}

theorem projectRows_ok : ∀ (l : List Nat) (cd cd' : Nat → R), l.Nodup → projectRows c s l cd = .ok cd' →
    (∀ r, r ∉ l → cd' r = cd r) ∧ ∀ r ∈ l, projectRow c s r (cd r) = .ok (cd' r)
  | [], cd, cd', _, h => by cases h; simp
  | a :: l, cd, cd', hnd, h => by
    unfold projectRows at h
    cases e : projectRow c s a (cd a) with
    | error x => rw [e] at h; cases h
    | ok x =>
      rw [e] at h
      obtain ⟨hal, hnd'⟩ := List.nodup_cons.1 hnd
      obtain ⟨h1, h2⟩ := projectRows_ok l _ cd' hnd' h
      constructor
      · intro r hr
        rw [List.mem_cons, not_or] at hr
        rw [h1 r hr.2, Function.update_of_ne hr.1]
      · intro r hr
        by_cases hra : r = a
        · subst hra
          rw [h1 r hal, Function.update_self, e]
        · have hr' : r ∈ l := by
            rcases List.mem_cons.1 hr with h | h
            · exact absurd h hra
            · exact h
          have := h2 r hr'
          rw [Function.update_of_ne hra] at this
          exact this

theorem projectRow_error {r : Nat} {x : R} {e : Fault} (h : projectRow c s r x = .error e) : e = .ub := by
  unfold projectRow at h
  cases e1 : VMap.flagsGet s.active (s.assign r) with
  | error f =>
    rw [e1] at h
    cases h
    unfold VMap.flagsGet at e1
    split at e1
    · cases e1
    · cases e1; rfl
  | ok b =>
    rw [e1] at h
    cases b
    · cases h
    · dsimp only at h
      cases e2 : s.hc (s.part r) with
      | none => rw [e2] at h; cases h; rfl
      | some nd =>
        rw [e2] at h
        dsimp only at h
        split at h
        · cases h; rfl
        · cases h

theorem projectRows_error : ∀ (l : List Nat) (cd : Nat → R) {e : Fault}, projectRows c s l cd = .error e → e = .ub
  | [], cd, e, h => by cases h
  | a :: l, cd, e, h => by
    unfold projectRows at h
    cases e1 : projectRow c s a (cd a) with
    | error x => rw [e1] at h; cases h; exact projectRow_error e1
    | ok x => rw [e1] at h; exact projectRows_error l _ h

/-- The projections of the rows of a partition that is being split, in a settled state. -/
theorem project_row {M : Nat} {live : Finset Nat} (hw : Wf M [] [] live s) (hst : Settled c.nrow M c.data s)
    {old cd : Nat → R} (h : projectRows c s (List.range c.nrow) old = .ok cd) {r p : Nat} {nd : Node R n}
    (hr : r < c.nrow) (hp : s.hc p = some nd) (hrp : s.part r = p) :
    dot (direction nd) (direction nd) ≠ 0 ∧
      cd r = dot (c.data r) (direction nd) / dot (direction nd) (direction nd) := by
  have h1 := (projectRows_ok _ _ _ List.nodup_range h).2 r (List.mem_range.2 hr)
  rcases hst.rows r hr with ⟨_, h2⟩ | ⟨nd', j, h2, h3⟩
  · rw [hrp, hp] at h2; cases h2
  · rw [hrp, hp] at h2; cases h2
    have h4 := hw.sideAct p nd j ⟨hp, by simp⟩
    unfold projectRow at h1
    have h5 : VMap.flagsGet s.active (s.assign r) = .ok true := by
      unfold VMap.flagsGet
      rw [h3, h4]
    rw [h5] at h1
    dsimp only at h1
    rw [hrp, hp] at h1
    dsimp only at h1
    split at h1
    · cases h1
    · rename_i h0
      exact ⟨h0, (Except.ok.inj h1).symm⟩

end

end

/-- What is known when the decision of a round is taken. -/
theorem round_inv {R D : Type _} [Field R] [LinearOrder R] [LinearOrder D] {alg : Alg} {c : Cfg R D n}
    {it : HInit R n} (hs : Sane c) (hn : 0 < n) (hmin : 2 ≤ c.minSize) (hmi : 1 ≤ c.maxIters)
    (hbig : MeansWithin c.nrow c.data c.dist c.big) (hit : Startable c it) {t : Nat} {hist : List Nat}
    {s s1 s2 : XSt R n} (h : Reached alg c it t hist s)
    (hg : alg = .g → t + 6 ≤ 3 * hclustFloor c.kmax) (e1 : meanPhase c s = .ok s1)
    {sched : Nat → List Nat} (hc : ∀ i, Par.Complete (Partition.effThreads c.reqThreads c.nrow)
      (Kmeans.threadRows c.nrow c.reqThreads) (sched i)) (e2 : iterate alg c sched s1 = .ok s2) :
    (∃ live, Wf c.maxNodes [] [] live s2.h) ∧ Settled c.nrow c.maxNodes c.data s2.h ∧
    (∀ p nd, s2.h.hc p = some nd → ∃ r, r < c.nrow ∧ s2.h.part r = p) ∧ s2.cl = s1.cl ∧
    ∀ p, p ∈ s2.h.keys → p ∉ hist → s2.cl.means p = meanOf c.nrow c.data s2.h.part p := by
  obtain ⟨d, live, hx, hnum⟩ := h.inv hs hn hmin hmi hbig hit hg
  have hf := fine_only (ks := []) (rej := []) hs hn hmin hmi hbig hc List.nodup_nil (by simp)
  obtain ⟨s1', e1', m1, k1, hh⟩ := round_ok hf hx
  rw [e1'] at e1; cases e1
  rcases hh with ⟨_, e2'⟩ | ⟨h2, h3, d3, e2', hro, _⟩
  · rw [e2'] at e2; cases e2
  rw [e2'] at e2; cases e2
  have hw2 := hro.wf hx.bd.wf
  refine ⟨⟨live, hw2⟩, hro.settled, ?_, rfl, ?_⟩
  · intro p nd hp
    obtain ⟨nd0, h0p⟩ := (Round.key hro p).1 ⟨nd, hp⟩
    obtain ⟨r, hr, h1⟩ := hx.bd.pop p nd0 h0p
    exact ⟨r, hr, by show h2.part r = p; rw [hro.part]; exact h1⟩
  · intro p hp hph
    show s1.cl.means p = meanOf c.nrow c.data h2.part p
    rw [hro.part]
    have hn0 : s.cl.num p = 0 := by
      by_contra hcon; exact hph (hnum p hcon)
    obtain ⟨nd, h2p⟩ := (mem_keys' hw2).1 hp
    obtain ⟨nd0, h0p⟩ := (Round.key hro p).1 ⟨nd, h2p⟩
    have hcnt : ∀ r, r < c.nrow → (Counts s.h p r ↔ s.h.part r = p) := by
      intro r hr
      constructor
      · rintro ⟨_, h4⟩; exact h4
      · intro h4
        refine ⟨?_, h4⟩
        rw [← hx.home r hr, h4]
        exact hx.bd.wf.keyAct p nd0 ⟨h0p, by simp⟩
    have hw : ∑ r ∈ Finset.range c.nrow, wt s.h p r = (size c.nrow s.h.part p : Int) := by
      unfold size wt
      rw [Finset.card_filter]
      push_cast
      apply Finset.sum_congr rfl
      intro r hr
      rw [Finset.mem_range] at hr
      by_cases hc1 : Counts s.h p r
      · rw [if_pos hc1, if_pos ((hcnt r hr).1 hc1)]
      · rw [if_neg hc1, if_neg fun hh => hc1 ((hcnt r hr).2 hh)]
    have hv : ∀ x, ∑ r ∈ Finset.range c.nrow, vl c s.h p x r =
        ∑ r ∈ (Finset.range c.nrow).filter (fun r => s.h.part r = p), c.data r x := by
      intro x
      unfold vl
      rw [Finset.sum_filter]
      apply Finset.sum_congr rfl
      intro r hr
      rw [Finset.mem_range] at hr
      by_cases hc1 : Counts s.h p r
      · rw [if_pos hc1, if_pos ((hcnt r hr).1 hc1)]
      · rw [if_neg hc1, if_neg fun hh => hc1 ((hcnt r hr).2 hh)]
    have hnn := m1.num p
    rw [hn0, zero_add, hw] at hnn
    funext x
    rw [m1.fresh p hn0 x, hv x]
    unfold meanOf
    by_cases hz : size c.nrow s.h.part p = 0
    · rw [if_pos hz, if_neg (by omega)]
      unfold size at hz
      rw [Finset.card_eq_zero] at hz
      rw [hz]; simp
    · rw [if_neg hz]
      by_cases hone : s1.cl.num p > 1
      · rw [if_pos hone, hnn]; simp
      · rw [if_neg hone]
        have : size c.nrow s.h.part p = 1 := by omega
        rw [this]; simp

/-- The mean of a cluster all of whose rows are the same. -/
theorem meanOf_const {R : Type _} [Field R] [CharZero R] {N : Nat} {data : Nat → Row R n} {a : Nat → Nat} {i : Nat}
    {x : Row R n} (h : ∀ r, r < N → a r = i → data r = x) :
    meanOf N data a i = if size N a i = 0 then 0 else x := by
  funext j
  unfold meanOf
  split
  · rfl
  · rename_i h0
    rw [Finset.sum_congr rfl (g := fun _ => x j) (by
      intro r hr
      rw [Finset.mem_filter, Finset.mem_range] at hr
      rw [h r hr.1 hr.2])]
    rw [Finset.sum_const, nsmul_eq_mul]
    change (size N a i : R) * x j / (size N a i : R) = x j
    have : (size N a i : R) ≠ 0 := Nat.cast_ne_zero.2 h0
    field_simp

end Knor.Score

/-! ### The recorded distances -/

namespace Knor.Score

open Knor Hclust Xmeans Spec

section
variable {R D : Type _} {n : Nat} [Field R] [LinearOrder R] [LinearOrder D] {c : Cfg R D n}
  {sched : Nat → List Nat}

/-- `nearest_cdist` does not influence the iterations. -/
theorem recordIters_fst : ∀ (l : List Nat) (s s' : St R n) (cd : Nat → D),
    forEach (fun s i => iteration c (sched i) s) l s = .ok s' → ∃ cd', recordIters c sched l s cd = .ok (s', cd')
  | [], s, s', cd, h => by cases h; exact ⟨cd, rfl⟩
  | x :: l, s, s', cd, h => by
    unfold forEach at h
    unfold recordIters
    cases e : iteration c (sched x) s with
    | error e' => rw [e] at h; cases h
    | ok s1 => rw [e] at h; exact recordIters_fst l s1 s' _ h

theorem recordIters_forEach : ∀ {l : List Nat} {s s' : St R n} {cd cd' : Nat → D},
    recordIters c sched l s cd = .ok (s', cd') → forEach (fun s i => iteration c (sched i) s) l s = .ok s'
  | [], s, s', cd, cd', h => by cases h; rfl
  | x :: l, s, s', cd, cd', h => by
    unfold recordIters at h
    unfold forEach
    cases e : iteration c (sched x) s with
    | error e' => rw [e] at h; cases h
    | ok s1 => rw [e] at h; exact recordIters_forEach h

theorem recordIters_append : ∀ (l l' : List Nat) (s : St R n) (cd : Nat → D),
    recordIters c sched (l ++ l') s cd =
      match recordIters c sched l s cd with
      | .error e => .error e
      | .ok (s', cd') => recordIters c sched l' s' cd'
  | [], l', s, cd => rfl
  | x :: l, l', s, cd => by
    rw [List.cons_append]
    rw [recordIters, recordIters]
    cases e : iteration c (sched x) s with
    | error e' => rfl
    | ok s1 =>
      exact recordIters_append l l' s1 (recordRow c s cd)

/-- What is recorded for row `r` of an open partition after some iterations from `s0`. -/
def Recorded (c : Cfg R D n) (sched : Nat → List Nat) (M : Nat) (s0 : St R n) (cd0 : Nat → D) (k : Nat) (s : St R n)
    (cd : Nat → D) (r : Nat) : Prop :=
  ∃ k', k' < k ∧ ∃ sk cdk nd i sk1, recordIters c sched (List.range k') s0 cd0 = .ok (sk, cdk) ∧
    iteration c (sched k') sk = .ok sk1 ∧ sk.hc (s0.part r) = some nd ∧
    s.assign r = nd.side i ∧ IsFirstNearest (fun i => c.dist (c.data r) (nd.cl.means i)) i ∧
    cd r = c.dist (c.data r) (nd.cl.means i) ∧
    (∀ r', r' < c.nrow → s0.part r' = s0.part r → s.assign r' = sk1.assign r') ∧
    (k' = 0 ∧ sk = s0 ∨ Settled c.nrow M c.data sk ∧ ∃ live, Wf M [] [] live sk) ∧ sk.part = s0.part ∧
    ∀ nd', s.hc (s0.part r) = some nd' → nd'.zero = nd.zero ∧ nd'.one = nd.one ∧
      (nd'.conv = true → changedRows c.nrow sk sk1 (s0.part r) = 0 ∨
        (changedRows c.nrow sk sk1 (s0.part r) : R) /
          ((size c.nrow sk1.assign nd.zero + size c.nrow sk1.assign nd.one : Nat) : R) ≤ c.tol)

theorem choose_nearest {s : St R n} {r a : Nat} {nd : Node R n} {i : Fin 2} (h : choose c s r a = .ok (some (nd, i))) :
    IsFirstNearest (fun i => c.dist (c.data r) (nd.cl.means i)) i := by
  unfold choose at h
  split at h
  · cases h
  · cases h
  · split at h
    · cases h
    · split at h
      · cases h
      · split at h
        · cases h
        · rename_i i' hi'
          cases h
          exact Kmeans.emScan_some hi'

/-- The invariant of the iterations of a round. -/
theorem recorded {s0 : St R n} {cd0 : Nat → D} {M : Nat} {live : Finset Nat} (hw : Wf M [] [] live s0)
    (hrd : Ready c M s0) (hbig : MeansWithin c.nrow c.data c.dist c.big)
    (hN : 0 < c.nrow) (hT : 0 < c.reqThreads) (hlt : c.nrow < 4294967296)
    (hc : ∀ i, Par.Complete (Partition.effThreads c.reqThreads c.nrow)
      (Kmeans.threadRows c.nrow c.reqThreads) (sched i))
    (hopen : ∀ r nd, r < c.nrow → s0.hc (s0.part r) = some nd → nd.conv = false) :
    ∀ k, ∃ s cd, recordIters c sched (List.range k) s0 cd0 = .ok (s, cd) ∧ Wf M [] [] live s ∧
      Ready c M s ∧ s.part = s0.part ∧ (∀ p, shape s p = shape s0 p) ∧
      (k = 0 ∧ s = s0 ∨ Settled c.nrow M c.data s) ∧
      ∀ r nd, r < c.nrow → s.hc (s.part r) = some nd →
        (nd.conv = false ∧ k = 0) ∨ Recorded c sched M s0 cd0 k s cd r
  | 0 => ⟨s0, cd0, rfl, hw, hrd, rfl, fun _ => rfl, Or.inl ⟨rfl, rfl⟩, fun r nd hr hp => Or.inl ⟨hopen r nd hr hp, rfl⟩⟩
  | k + 1 => by
    obtain ⟨s, cd, e, hw', hrd', hpart, hsh, hset, hrec⟩ :=
      recorded (cd0 := cd0) hw hrd hbig hN hT hlt hc hopen k
    obtain ⟨s', e', ho⟩ := iteration_ok hw' hrd' hN hT hlt (hc k)
    refine ⟨s', recordRow c s cd, ?_, ho.wf hw', ho.settled.ready hbig, ho.part.trans hpart,
      fun p => (ho.shape p).trans (hsh p), Or.inr ho.settled, ?_⟩
    · rw [List.range_succ, recordIters_append, e]
      dsimp only
      unfold recordIters
      rw [e']
      rfl
    intro r nd' hr hp'
    right
    rw [ho.part] at hp'
    obtain ⟨nd, hp, hsd⟩ := shape_open ho.shape hp'
    have hfin : ∀ r', r' < c.nrow → s.part r' = s.part r → s.final (s.assign r') = none := by
      intro r' hr' hpr
      by_contra hne
      have hsome : (s.final (s.assign r')).isSome := Option.isSome_iff_ne_none.2 hne
      rcases hrd'.rows r' hr' with ⟨_, h⟩ | ⟨nd2, h, h2 | ⟨j, h2⟩⟩
      · rw [hpr, hp] at h; cases h
      · have := hw'.finNone _ hsome
        rw [h2, h] at this; cases this
      · refine hw'.finChild _ hsome ⟨s.part r', nd2, j, ⟨h, by simp⟩, h2.symm⟩
    cases hcv : nd.conv with
    | false =>
      rcases choose_ok hw' hrd' hr with ⟨h0, _⟩ | ⟨nd2, _, h1, ⟨h2, _⟩ | ⟨_, i, h⟩⟩
      · rw [hfin r hr rfl] at h0; cases h0
      · rw [hp] at h1; cases h1; rw [hcv] at h2; cases h2
      · rw [hp] at h1; cases h1
        obtain ⟨i', h3, h4⟩ := ho.move r nd hr (hfin r hr rfl) hp hcv
        have hi : i' = i := le_antisymm (h4.2 i (choose_nearest h).1) ((choose_nearest h).2 i' h4.1)
        subst hi
        refine ⟨k, Nat.lt_succ_self k, s, cd, nd, i', s', e, e', by rw [← hpart]; exact hp, h3, h4, ?_, fun _ _ _ => rfl,
          hset.imp id fun h => ⟨h, live, hw'⟩, hpart, ?_⟩
        · unfold recordRow
          rw [h]
        · intro nd2 h5
          rw [← hpart, hp'] at h5; cases h5
          refine ⟨hsd 0, hsd 1, fun h6 => ?_⟩
          rw [← hpart]
          rcases (ho.test _ nd nd' hp hp').1 h6 with h7 | h7
          · rw [hcv] at h7; cases h7
          · exact h7
    | true =>
      rcases hrec r nd hr hp with ⟨h, _⟩ | ⟨k', hk', sk, cdk, ndk, i, sk1, h1, h2, h3, h4, h5, h6, h7, h8, h9, h10⟩
      · rw [hcv] at h; cases h
      have hst : ∀ r', r' < c.nrow → s0.part r' = s0.part r → s'.assign r' = s.assign r' := by
        intro r' hr' hpr
        rw [← hpart] at hpr
        exact ho.conv r' nd hr' (hfin r' hr' hpr) (by rw [hpr]; exact hp) hcv
      refine ⟨k', hk'.trans (Nat.lt_succ_self k), sk, cdk, ndk, i, sk1, h1, h2, h3, (hst r hr rfl).trans h4, h5, ?_,
        fun r' hr' hpr => (hst r' hr' hpr).trans (h7 r' hr' hpr), h8, h9, ?_⟩
      · rw [← h6]
        unfold recordRow
        rcases choose_ok hw' hrd' hr with ⟨h0, _⟩ | ⟨nd2, _, h1, ⟨_, h⟩ | ⟨h2, _⟩⟩
        · rw [hfin r hr rfl] at h0; cases h0
        · rw [h]
        · rw [hp] at h1; cases h1; rw [hcv] at h2; cases h2
      · intro nd2 h11
        rw [← hpart, hp'] at h11; cases h11
        obtain ⟨ha, hb, hcc⟩ := h10 nd (by rw [← hpart]; exact hp)
        exact ⟨(hsd 0).trans ha, (hsd 1).trans hb, fun _ => hcc hcv⟩

end

end Knor.Score
