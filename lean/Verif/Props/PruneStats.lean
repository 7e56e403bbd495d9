import Mathlib.Algebra.Order.Field.Rat
import Mathlib.Tactic.Linarith
import Mathlib.Tactic.Ring
import Verif.Spec.PruneStats

/-! # Property C105: the statistics of a run -/

namespace Knor.Stats

open Knor

/-- The total of a reason over the finished iterations. -/
def PruneStats.tot (s : PruneStats) : Reason → Nat
  | .lemma1 => s.totLemma1
  | .r3a => s.tot3a
  | .r3b => s.tot3b
  | .r3c => s.tot3c
  | .r4 => s.tot4

theorem reported_cons (c : PCall) (l : List PCall) (r : Reason) : reported (c :: l) r = amount c r + reported l r := by
  simp [reported]

theorem doPCall_report {s : PruneStats} {c : PCall} (hc : c ≠ .finalize)
    (h : ∀ r, s.get r + amount c r < 18446744073709551616) :
    ∃ s', doPCall s c = .ok s' ∧ (∀ r, s'.get r = s.get r + amount c r) ∧ s'.tot = s.tot ∧ s'.iter = s.iter ∧
      s'.nrow = s.nrow ∧ s'.nclust = s.nclust := by
  cases c with
  | finalize => exact absurd rfl hc
  | lemma1 v =>
    refine ⟨_, rfl, ?_, rfl, rfl, rfl, rfl⟩
    intro r; have := h r
    cases r <;> first | exact u64_of_lt this | rfl
  | r3a =>
    refine ⟨_, rfl, ?_, rfl, rfl, rfl, rfl⟩
    intro r; have := h r
    cases r <;> first | exact u64_of_lt this | rfl
  | r3b =>
    refine ⟨_, rfl, ?_, rfl, rfl, rfl, rfl⟩
    intro r; have := h r
    cases r <;> first | exact u64_of_lt this | rfl
  | r3c =>
    refine ⟨_, rfl, ?_, rfl, rfl, rfl, rfl⟩
    intro r; have := h r
    cases r <;> first | exact u64_of_lt this | rfl
  | r4 =>
    refine ⟨_, rfl, ?_, rfl, rfl, rfl, rfl⟩
    intro r; have := h r
    cases r <;> first | exact u64_of_lt this | rfl
  | merge o =>
    refine ⟨_, rfl, ?_, rfl, rfl, rfl, rfl⟩
    intro r; have := h r
    cases r <;> exact u64_of_lt this

theorem doPCalls_reports : ∀ (l : List PCall) (s : PruneStats), Reports l →
    (∀ r, s.get r + reported l r < 18446744073709551616) →
    ∃ s', doPCalls s l = .ok s' ∧ (∀ r, s'.get r = s.get r + reported l r) ∧ s'.tot = s.tot ∧ s'.iter = s.iter ∧
      s'.nrow = s.nrow ∧ s'.nclust = s.nclust
  | [], s, _, _ => ⟨s, rfl, by simp [reported], rfl, rfl, rfl, rfl⟩
  | c :: l, s, hl, h => by
    obtain ⟨s1, e1, g1, t1, i1, n1, k1⟩ := doPCall_report (s := s) (hl c (by simp)) fun r => by
      have := h r; rw [reported_cons] at this; omega
    obtain ⟨s2, e2, g2, t2, i2, n2, k2⟩ := doPCalls_reports l s1 (fun c hc => hl c (by simp [hc])) fun r => by
      have := h r; rw [reported_cons] at this; rw [g1]; omega
    refine ⟨s2, by unfold doPCalls; rw [e1]; exact e2, fun r => ?_, t2.trans t1, i2.trans i1, n2.trans n1, k2.trans k1⟩
    rw [g2, g1, reported_cons]; omega

theorem doPCalls_append (s : PruneStats) (l m : List PCall) :
    doPCalls s (l ++ m) = match doPCalls s l with
      | .error e => .error e
      | .ok s' => doPCalls s' m := by
  induction l generalizing s with
  | nil => rfl
  | cons c l ih =>
    simp only [List.cons_append, doPCalls]
    cases doPCall s c with
    | error e => rfl
    | ok s' => exact ih s'

theorem reportedAll_eq (l : List PCall) : reportedAll l =
    reported l .lemma1 + reported l .r3a + reported l .r3b + reported l .r3c + reported l .r4 := by
  simp [reportedAll, reasons]; omega

theorem reported_le (l : List PCall) (r : Reason) : reported l r ≤ reportedAll l := by
  rw [reportedAll_eq]; cases r <;> omega

/-- An iteration and its `finalize`, when the reports fit. -/
theorem iteration_ok {s : PruneStats} {it : List PCall} (hr : Reports it) (h0 : ∀ r, s.get r = 0)
    (hf : reportedAll it ≤ s.nrow * s.nclust) (hn : s.nrow * s.nclust < 18446744073709551616)
    (ht : ∀ r, s.tot r + reported it r < 18446744073709551616) (hi : s.iter + 1 < 18446744073709551616) :
    ∃ s', doPCalls s (it ++ [.finalize]) = .ok s' ∧ (∀ r, s'.get r = 0) ∧
      (∀ r, s'.tot r = s.tot r + reported it r) ∧ s'.iter = s.iter + 1 ∧ s'.nrow = s.nrow ∧ s'.nclust = s.nclust := by
  obtain ⟨s1, e1, g1, t1, i1, n1, k1⟩ := doPCalls_reports it s hr fun r => by
    have := reported_le it r; rw [h0]; omega
  have gs : ∀ r, s1.get r = reported it r := fun r => by rw [g1, h0]; omega
  have hsum : s1.lemma1 + s1.c3a + s1.c3b + s1.c3c + s1.c4 = reportedAll it := by
    rw [reportedAll_eq, ← gs .lemma1, ← gs .r3a, ← gs .r3b, ← gs .r3c, ← gs .r4]; rfl
  rw [doPCalls_append, e1]
  simp only [doPCalls, doPCall, finalize]
  rw [hsum, n1, k1, u64_of_lt (by omega), u64_of_lt hn, if_pos hf]
  refine ⟨_, rfl, ?_, ?_, ?_, rfl, rfl⟩
  · intro r; cases r <;> rfl
  · intro r
    have hg := gs r
    have htr := ht r
    rw [← t1] at htr ⊢
    rw [← hg] at htr ⊢
    cases r <;> exact u64_of_lt htr
  · change u64 (s1.iter + 1) = _
    rw [i1, u64_of_lt hi]

/-- An iteration whose reports do not fit. -/
theorem iteration_bad {s : PruneStats} {it : List PCall} (hr : Reports it) (h0 : ∀ r, s.get r = 0)
    (hf : s.nrow * s.nclust < reportedAll it) (hn : reportedAll it < 18446744073709551616) :
    doPCalls s (it ++ [.finalize]) = .error .assertFail := by
  obtain ⟨s1, e1, g1, t1, i1, n1, k1⟩ := doPCalls_reports it s hr fun r => by
    have := reported_le it r; rw [h0]; omega
  have gs : ∀ r, s1.get r = reported it r := fun r => by rw [g1, h0]; omega
  have hsum : s1.lemma1 + s1.c3a + s1.c3b + s1.c3c + s1.c4 = reportedAll it := by
    rw [reportedAll_eq, ← gs .lemma1, ← gs .r3a, ← gs .r3b, ← gs .r3c, ← gs .r4]; rfl
  rw [doPCalls_append, e1]
  simp only [doPCalls, doPCall, finalize]
  rw [hsum, n1, k1, u64_of_lt hn, u64_of_lt (by omega), if_neg (by omega)]

theorem sum_all_le {nk : Nat} : ∀ {done : List (List PCall)}, (∀ it ∈ done, reportedAll it ≤ nk) →
    (done.map reportedAll).sum ≤ nk * done.length
  | [], _ => by simp
  | it :: done, h => by
    have := sum_all_le (done := done) fun x hx => h x (by simp [hx])
    have h1 := h it (by simp)
    simp only [List.map_cons, List.sum_cons, List.length_cons, Nat.mul_add]
    omega

theorem iterations_ok : ∀ (done : List (List PCall)) (s : PruneStats), (∀ it ∈ done, Reports it) →
    (∀ r, s.get r = 0) → (∀ it ∈ done, reportedAll it ≤ s.nrow * s.nclust) → s.nrow * s.nclust < 18446744073709551616 →
    (∀ r, s.tot r + (done.map reportedAll).sum < 18446744073709551616) →
    s.iter + done.length < 18446744073709551616 →
    ∃ s', doPCalls s (done.flatMap fun it => it ++ [.finalize]) = .ok s' ∧ (∀ r, s'.get r = 0) ∧
      (∀ r, s'.tot r = s.tot r + (done.map fun it => reported it r).sum) ∧ s'.iter = s.iter + done.length ∧
      s'.nrow = s.nrow ∧ s'.nclust = s.nclust
  | [], s, _, h0, _, _, _, _ => ⟨s, rfl, h0, by simp, by simp, rfl, rfl⟩
  | it :: done, s, hr, h0, hf, hn, ht, hi => by
    simp only [List.map_cons, List.sum_cons, List.length_cons] at ht hi
    obtain ⟨s1, e1, g1, t1, i1, n1, k1⟩ := iteration_ok (hr it (by simp)) h0 (hf it (by simp)) hn
      (fun r => by have := ht r; have := reported_le it r; omega) (by omega)
    obtain ⟨s2, e2, g2, t2, i2, n2, k2⟩ := iterations_ok done s1 (fun x hx => hr x (by simp [hx])) g1
      (fun x hx => by rw [n1, k1]; exact hf x (by simp [hx])) (by rw [n1, k1]; exact hn)
      (fun r => by have := ht r; have := reported_le it r; rw [t1]; omega) (by omega)
    refine ⟨s2, ?_, g2, fun r => ?_, by rw [i2, i1, List.length_cons]; omega, n2.trans n1, k2.trans k1⟩
    · rw [List.flatMap_cons, doPCalls_append, e1]; exact e2
    · rw [t2, t1, List.map_cons, List.sum_cons]; omega

/-- **C105 (counts and percentages).** An object for `nrow` rows and `nclust` clusters is given any history of
reports, in iterations each ended by `finalize`, the current one still open; other objects may be added.  If no
iteration reports more than `nrow * nclust` skipped computations and the counters do not overflow, then no assertion
fails, the getters show what was reported since the last `finalize`, and `get_stats` is the percentage of each reason
among all `nrow * nclust * iterations` computations, followed by that of all reasons together. -/
theorem C105_prune_stats {R : Type _} [Field R] (nrow nclust : Nat) (done : List (List PCall)) (cur : List PCall)
    (hr : ∀ it ∈ done, Reports it) (hc : Reports cur) (hfit : ∀ it ∈ done, reportedAll it ≤ nrow * nclust)
    (hpos : 0 < nrow * nclust) (hn : nrow * nclust * done.length < 18446744073709551616)
    (hn1 : nrow * nclust < 18446744073709551616) (hcur : reportedAll cur < 18446744073709551616) :
    ∃ s, doPCalls (create nrow nclust) (history done cur) = .ok s ∧ (∀ r, s.get r = reported cur r) ∧
      (done ≠ [] → (getStats s : List (Option R)) =
        (reasons.map fun r => some (pct (done.map fun it => reported it r).sum (nrow * nclust * done.length))) ++
          [some (pct (done.map reportedAll).sum (nrow * nclust * done.length))]) := by
  have hsum := sum_all_le hfit
  have hlen : done.length < 18446744073709551616 := lt_of_le_of_lt (Nat.le_mul_of_pos_left _ hpos) hn
  obtain ⟨s1, e1, g1, t1, i1, n1, k1⟩ := iterations_ok done (create nrow nclust) hr (fun r => by cases r <;> rfl) hfit
    hn1 (fun r => by
      have : (create nrow nclust).tot r = 0 := by cases r <;> rfl
      omega) (by change 0 + _ < _; omega)
  obtain ⟨s2, e2, g2, t2, i2, n2, k2⟩ := doPCalls_reports cur s1 hc fun r => by
    have := reported_le cur r; rw [g1]; omega
  refine ⟨s2, ?_, fun r => by rw [g2, g1]; omega, fun hne => ?_⟩
  · unfold history; rw [doPCalls_append, e1]; exact e2
  have tt : ∀ r, s2.tot r = (done.map fun it => reported it r).sum := fun r => by
    rw [t2, t1]
    have : (create nrow nclust).tot r = 0 := by cases r <;> rfl
    omega
  have hit : s2.iter = done.length := by rw [i2, i1]; change 0 + _ = _; omega
  have hnr : s2.nrow = nrow := n2.trans n1
  have hnk : s2.nclust = nclust := k2.trans k1
  have hden : s2.nrow * s2.iter * s2.nclust = nrow * nclust * done.length := by
    rw [hit, hnr, hnk]; exact Nat.mul_right_comm _ _ _
  have hl : 0 < done.length := List.length_pos_iff.2 hne
  have hd0 : nrow * nclust * done.length ≠ 0 := (Nat.mul_pos hpos hl).ne'
  have hall : (done.map reportedAll).sum = s2.tot .lemma1 + s2.tot .r3a + s2.tot .r3b + s2.tot .r3c + s2.tot .r4 := by
    rw [tt, tt, tt, tt, tt]
    clear * -
    induction done with
    | nil => rfl
    | cons it l ih => simp only [List.map_cons, List.sum_cons, reportedAll_eq it]; omega
  have hadd : s2.tot3b + s2.tot3a + s2.tot3c + s2.tot4 + s2.totLemma1 = (done.map reportedAll).sum := by
    rw [hall]; simp only [PruneStats.tot]; omega
  unfold getStats
  simp only
  rw [hadd, hden, u64_of_lt hn, u64_of_lt (lt_of_le_of_lt hsum hn)]
  simp only [percent, if_neg hd0, reasons, List.map_cons, List.map_nil, List.cons_append, List.nil_append, ← tt]
  rfl

/-- **C105 (assertion).** The first iteration that reports more skipped computations than there are aborts the
process at its `finalize`. -/
theorem C105_too_many (nrow nclust : Nat) (done : List (List PCall)) (it : List PCall) (rest : List PCall)
    (hr : ∀ it ∈ done, Reports it) (hi : Reports it) (hfit : ∀ it ∈ done, reportedAll it ≤ nrow * nclust)
    (hbad : nrow * nclust < reportedAll it) (hbad2 : reportedAll it < 18446744073709551616)
    (hn : nrow * nclust * done.length < 18446744073709551616) (hlen : done.length < 18446744073709551616) :
    doPCalls (create nrow nclust) (history done (it ++ .finalize :: rest)) = .error .assertFail := by
  have hsum := sum_all_le hfit
  obtain ⟨s1, e1, g1, t1, i1, n1, k1⟩ := iterations_ok done (create nrow nclust) hr (fun r => by cases r <;> rfl) hfit
    (by change nrow * nclust < _; omega) (fun r => by
      have : (create nrow nclust).tot r = 0 := by cases r <;> rfl
      omega) (by change 0 + _ < _; omega)
  have hb := iteration_bad (s := s1) hi g1 (by rw [n1, k1]; exact hbad) hbad2
  unfold history
  rw [doPCalls_append, e1]
  simp only
  have : it ++ PCall.finalize :: rest = (it ++ [.finalize]) ++ rest := by simp
  rw [this, doPCalls_append, hb]

theorem pct_mono {R : Type _} [Field R] [LinearOrder R] [IsStrictOrderedRing R] {a b : Nat} (h : a ≤ b) :
    0 ≤ (pct a b : R) ∧ (pct a b : R) ≤ 100 := by
  unfold pct
  have ha : (0 : R) ≤ a := Nat.cast_nonneg a
  have hb : (0 : R) ≤ b := Nat.cast_nonneg b
  have hab : (a : R) ≤ b := Nat.cast_le.2 h
  refine ⟨mul_nonneg (div_nonneg ha hb) (by norm_num), ?_⟩
  have : (a : R) / b ≤ 1 := div_le_one_of_le₀ hab hb
  linarith

/-- **C105 (shares).** The percentages of `C105_prune_stats` are between 0 and 100, and the last is the sum of the
others. -/
theorem C105_shares {R : Type _} [Field R] [LinearOrder R] [IsStrictOrderedRing R] (nk : Nat)
    (done : List (List PCall)) (hfit : ∀ it ∈ done, reportedAll it ≤ nk) :
    (∀ r, 0 ≤ (pct (done.map fun it => reported it r).sum (nk * done.length) : R) ∧
      (pct (done.map fun it => reported it r).sum (nk * done.length) : R) ≤ 100) ∧
    (pct (done.map reportedAll).sum (nk * done.length) : R) ≤ 100 ∧
    (pct (done.map reportedAll).sum (nk * done.length) : R) =
      (reasons.map fun r => (pct (done.map fun it => reported it r).sum (nk * done.length) : R)).sum := by
  have hsum := sum_all_le hfit
  have hle : ∀ r, (done.map fun it => reported it r).sum ≤ (done.map reportedAll).sum := by
    intro r
    clear * -
    induction done with
    | nil => exact le_rfl
    | cons it l ih =>
      simp only [List.map_cons, List.sum_cons]
      have := reported_le it r
      omega
  have hall : (done.map reportedAll).sum = (done.map fun it => reported it .lemma1).sum +
      (done.map fun it => reported it .r3a).sum + (done.map fun it => reported it .r3b).sum +
      (done.map fun it => reported it .r3c).sum + (done.map fun it => reported it .r4).sum := by
    clear * -
    induction done with
    | nil => rfl
    | cons it l ih => simp only [List.map_cons, List.sum_cons, reportedAll_eq it]; omega
  refine ⟨fun r => pct_mono ((hle r).trans hsum), (pct_mono hsum).2, ?_⟩
  rw [hall]
  simp only [reasons, List.map_cons, List.map_nil, List.sum_cons, List.sum_nil, pct]
  push_cast
  ring

/-- **C105, violated before the first `finalize`.** Then `get_stats` divides zero by zero: all six entries are NaN,
not 0. -/
theorem C105_no_iteration_violated {R : Type _} [Field R] (nrow nclust : Nat) (cur : List PCall) (hc : Reports cur)
    (hcur : reportedAll cur < 18446744073709551616) :
    ∃ s, doPCalls (create nrow nclust) cur = .ok s ∧ (getStats s : List (Option R)) = List.replicate 6 none := by
  obtain ⟨s2, e2, g2, t2, i2, n2, k2⟩ := doPCalls_reports cur (create nrow nclust) hc fun r => by
    have := reported_le cur r
    have : (create nrow nclust).get r = 0 := by cases r <;> rfl
    omega
  refine ⟨s2, e2, ?_⟩
  have : s2.iter = 0 := i2
  simp [getStats, percent, this, u64, List.replicate]

/-- Two iterations on four rows and three clusters; the second also adds the counts of another thread's object. -/
def demoDone : List (List PCall) :=
  [[.lemma1 3, .r3a, .r3a, .r4], [.r3b, .merge { create 4 3 with lemma1 := 6, c3c := 2 }]]

/-- The hypotheses are met and the percentages are those of 24 computations. -/
example : (∀ it ∈ demoDone, reportedAll it ≤ 4 * 3) ∧
    (match doPCalls (create 4 3) (history demoDone [.r4]) with
      | .ok s => some (s.get .r4, (getStats s : List (Option ℚ)))
      | .error _ => none) =
    some (1, [some (75 / 2), some (25 / 3), some (25 / 6), some (25 / 3), some (25 / 6), some (125 / 2)]) := by
  decide +kernel

/-- The demonstration reports only. -/
example : ∀ it ∈ demoDone, Reports it := by
  intro it hit c hc
  simp only [demoDone, List.mem_cons, List.not_mem_nil, or_false] at hit
  rcases hit with rfl | rfl <;> simp at hc <;> rcases hc with rfl | rfl | rfl | rfl <;> simp

/-- Thirteen reports for twelve computations. -/
example : doPCalls (create 4 3) (history [] ([.lemma1 13] ++ .finalize :: [])) = .error .assertFail := by
  decide +kernel

/-! ### activation_counter -/

theorem actReports_ok : ∀ (it : List Nat) (s : Activation), (∀ t ∈ it, t < s.cur.length) →
    s.cur.sum + it.length < 18446744073709551616 →
    ∃ s', actReports s it = .ok s' ∧ s'.cur.length = s.cur.length ∧ s'.agg = s.agg ∧
      s'.cur.sum = s.cur.sum + it.length
  | [], s, _, _ => ⟨s, rfl, rfl, rfl, rfl⟩
  | t :: it, s, ht, hs => by
    have h1 : t < s.cur.length := ht t (by simp)
    rw [List.length_cons] at hs
    have hset : ∀ (l : List Nat) (i : Nat) (hi : i < l.length) (v : Nat),
        (l.set i v).sum + l[i] = l.sum + v := by
      intro l
      induction l with
      | nil => intro i hi; simp at hi
      | cons a l ih =>
        intro i hi v
        cases i with
        | zero => simp; omega
        | succ i =>
          have := ih i (by simpa using hi) v
          simp only [List.set_cons_succ, List.sum_cons, List.getElem_cons_succ]
          omega
    have hsum := hset s.cur t h1 (s.cur[t] + 1)
    have hle := hset s.cur t h1 0
    obtain ⟨s', e, l, a, c⟩ := actReports_ok it { s with cur := s.cur.set t (s.cur[t] + 1) }
      (fun u hu => by simpa using ht u (by simp [hu])) (by simp only; omega)
    refine ⟨s', ?_, by simpa using l, a, by rw [c, List.length_cons]; simp only; omega⟩
    unfold actReports actActive
    rw [List.getElem?_eq_getElem h1]
    simp only
    rw [u64_of_lt (by omega)]
    exact e

theorem foldl_sum : ∀ (l : List Nat) (a : Nat), a + l.sum < 18446744073709551616 →
    l.foldl (fun tot v => u64 (tot + v)) a = a + l.sum
  | [], a, _ => by simp
  | v :: l, a, h => by
    rw [List.sum_cons] at h
    rw [List.foldl_cons, u64_of_lt (by omega), foldl_sum l _ (by omega), List.sum_cons]; omega

theorem actIters_ok : ∀ (its : List (List Nat)) (s : Activation), (∀ it ∈ its, ∀ t ∈ it, t < s.cur.length) →
    (∀ it ∈ its, it.length < 18446744073709551616) → s.cur.sum = 0 →
    ∃ s', actIters s its = .ok s' ∧ s'.agg = s.agg ++ its.map List.length
  | [], s, _, _, _ => ⟨s, rfl, by simp⟩
  | it :: its, s, ht, hl, h0 => by
    obtain ⟨s1, e1, l1, a1, c1⟩ := actReports_ok it s (ht it (by simp)) (by rw [h0]; have := hl it (by simp); omega)
    have hc : (actComplete s1).cur.length = s.cur.length := by simp [actComplete, l1]
    obtain ⟨s2, e2, a2⟩ := actIters_ok its (actComplete s1)
      (fun x hx => by rw [hc]; exact ht x (by simp [hx])) (fun x hx => hl x (by simp [hx])) (by simp [actComplete])
    refine ⟨s2, by unfold actIters; rw [e1]; exact e2, ?_⟩
    rw [a2, List.map_cons]
    unfold actComplete
    simp only
    have hh := hl it (by simp)
    rw [foldl_sum _ _ (by omega), c1, h0, a1]
    simp

/-- **C105 (activations).** Whatever threads report, in whatever order, `get_active_count_per_iter` lists the number
of reports of each iteration. -/
theorem C105_activations (nthread : Nat) (its : List (List Nat)) (ht : ∀ it ∈ its, ∀ t ∈ it, t < nthread)
    (hl : ∀ it ∈ its, it.length < 18446744073709551616) :
    ∃ s, actIters (actCreate nthread) its = .ok s ∧ s.agg = its.map List.length := by
  obtain ⟨s, e, a⟩ := actIters_ok its (actCreate nthread) (by simpa [actCreate] using ht) hl (by simp [actCreate])
  exact ⟨s, e, by simpa [actCreate] using a⟩

/-- Three threads, two iterations. -/
example : (actIters (actCreate 3) [[0, 2, 2, 1], [1]]).map (·.agg) = .ok [4, 1] := by decide +kernel

/-! ### active_counter -/

theorem set_map_range {n r : Nat} {b : Bool} (p : Nat → Bool) :
    ((List.range n).map p).set r b = (List.range n).map (Function.update p r b) := by
  apply List.ext_getElem (by simp)
  intro i h1 h2
  rw [List.getElem_set]
  simp only [List.getElem_map, List.getElem_range]
  by_cases h : r = i
  · subst h; simp
  · rw [if_neg h, Function.update_of_ne (fun h' => h h'.symm)]

theorem isActive_eq {n : Nat} {A : List (List Bool)} {p q : Nat → Bool} {r : Nat} (hr : r < n) (b : Bool) :
    isActive { prev := (List.range n).map p, active := A ++ [(List.range n).map q], nrow := n } r b =
      .ok { prev := (List.range n).map (Function.update p r b)
            active := A ++ [(List.range n).map (Function.update q r (b && p r))], nrow := n } := by
  unfold isActive
  have h1 : ((List.range n).map p)[r]? = some (p r) := by simp [hr]
  simp only [h1, List.getLast?_concat, List.length_map, List.length_range, hr, if_true, List.dropLast_concat,
    set_map_range]

theorem reportRows_eq {n : Nat} (f : Nat → Bool) : ∀ (o : List Nat) (A : List (List Bool)) (p q : Nat → Bool),
    o.Nodup → (∀ r ∈ o, r < n) →
    reportRows { prev := (List.range n).map p, active := A ++ [(List.range n).map q], nrow := n }
      (o.map fun r => (r, f r)) =
      .ok { prev := (List.range n).map fun r => if r ∈ o then f r else p r
            active := A ++ [(List.range n).map fun r => if r ∈ o then f r && p r else q r], nrow := n }
  | [], A, p, q, _, _ => by simp [reportRows]
  | r :: o, A, p, q, hn, hr => by
    obtain ⟨hn1, hn2⟩ := List.nodup_cons.1 hn
    rw [List.map_cons]
    unfold reportRows
    rw [isActive_eq (hr r (by simp))]
    simp only
    rw [reportRows_eq f o A _ _ hn2 fun x hx => hr x (by simp [hx])]
    have e1 : (fun x => if x ∈ o then f x else Function.update p r (f r) x) =
        fun x => if x ∈ r :: o then f x else p x := by
      funext x
      by_cases hx : x = r
      · subst hx; simp [hn1]
      · simp [hx]
    have e2 : (fun x => if x ∈ o then f x && Function.update p r (f r) x
          else Function.update q r (f r && p r) x) =
        fun x => if x ∈ r :: o then f x && p x else q x := by
      funext x
      by_cases hx : x = r
      · subst hx; simp [hn1]
      · simp [hx]
    rw [e1, e2]

theorem map_range_congr {n : Nat} {f g : Nat → Bool} (h : ∀ r, r < n → f r = g r) :
    (List.range n).map f = (List.range n).map g :=
  List.map_congr_left fun r hr => h r (List.mem_range.1 hr)

theorem reportIters_eq {n : Nat} (v : Nat → Nat → Bool) : ∀ (os : List (List Nat)) (i : Nat) (A : List (List Bool)),
    os ≠ [] → (∀ o ∈ os, o.Perm (List.range n)) →
    ∃ s, reportIters { prev := (List.range n).map fun r => decide (0 < i) && v (i - 1) r
                       active := A ++ [List.replicate n false], nrow := n } (itersOf v i os) = .ok s ∧ s.nrow = n ∧
      s.active = A ++ (List.range os.length).map fun j =>
        (List.range n).map fun r => v (i + j) r && (decide (0 < i + j) && v (i + j - 1) r)
  | [], _, _, h, _ => absurd rfl h
  | o :: os, i, A, _, hp => by
    have ho := hp o (by simp)
    have hnd : o.Nodup := ho.nodup_iff.2 List.nodup_range
    have hmem : ∀ r, r ∈ o ↔ r < n := fun r => by rw [ho.mem_iff, List.mem_range]
    have hrep : List.replicate n false = (List.range n).map fun _ => false := by
      rw [List.map_const', List.length_range]
    have hrow := reportRows_eq (n := n) (v i) o A (fun r => decide (0 < i) && v (i - 1) r) (fun _ => false) hnd
      fun r hr => (hmem r).1 hr
    have e1 : (List.range n).map (fun r => if r ∈ o then v i r else decide (0 < i) && v (i - 1) r) =
        (List.range n).map fun r => v i r := map_range_congr fun r hr => by rw [if_pos ((hmem r).2 hr)]
    have e2 : (List.range n).map (fun r => if r ∈ o then v i r && (decide (0 < i) && v (i - 1) r) else false) =
        (List.range n).map fun r => v i r && (decide (0 < i) && v (i - 1) r) :=
      map_range_congr fun r hr => by rw [if_pos ((hmem r).2 hr)]
    rw [e1, e2] at hrow
    rw [hrep]
    cases os with
    | nil =>
      refine ⟨_, by simp only [itersOf, reportIters]; exact hrow, rfl, ?_⟩
      simp
    | cons o' os =>
      obtain ⟨s, e, en, ea⟩ := reportIters_eq v (o' :: os) (i + 1)
        (A ++ [(List.range n).map fun r => v i r && (decide (0 < i) && v (i - 1) r)]) (by simp)
        fun x hx => hp x (by simp [hx])
      refine ⟨s, ?_, en, ?_⟩
      · simp only [itersOf, reportIters]
        rw [hrow]
        simp only [initIter]
        have e3 : (List.range n).map (fun r => decide (0 < i + 1) && v (i + 1 - 1) r) =
            (List.range n).map fun r => v i r := by simp
        rw [e3] at e
        exact e
      · rw [ea, List.append_assoc]
        congr 1
        rw [List.length_cons (a := o), List.range_succ_eq_map, List.map_cons, List.map_map]
        simp only [List.singleton_append, Nat.add_zero]
        congr 1
        apply List.map_congr_left
        intro j _
        simp only [Function.comp, Nat.succ_eq_add_one]
        have e4 : i + 1 + j = i + (j + 1) := by omega
        rw [e4]

theorem mapM_ok {α β : Type _} (f : α → Res β) (g : α → β) : ∀ (l : List α), (∀ x ∈ l, f x = .ok (g x)) →
    l.mapM f = .ok (l.map g)
  | [], _ => rfl
  | x :: l, h => by
    rw [List.mapM_cons, h x (by simp), mapM_ok f g l fun y hy => h y (by simp [hy])]
    rfl

/-- The flags of the rows after iterations in which every row is reported exactly once. -/
theorem active_sample (n : Nat) (v : Nat → Nat → Bool) (os : List (List Nat)) (hne : os ≠ [])
    (hp : ∀ o ∈ os, o.Perm (List.range n)) :
    ∃ s, reportIters (activeCreate n) (itersOf v 0 os) = .ok s ∧ s.nrow = n ∧ s.active.length = os.length ∧
      ∀ row, row < n → sample s row = .ok (bothActive v row os.length) := by
  obtain ⟨s, e, en, ea⟩ := reportIters_eq (n := n) v os 0 [] hne hp
  refine ⟨s, ?_, en, by rw [ea]; simp, ?_⟩
  · have : activeCreate n = { prev := (List.range n).map fun r => decide (0 < 0) && v (0 - 1) r
                              active := [] ++ [List.replicate n false], nrow := n } := by
      unfold activeCreate initIter
      simp only [List.nil_append, Active.mk.injEq, and_true]
      simp [List.map_const']
    rw [this]; exact e
  · intro row hrow
    unfold sample
    rw [ea, mapM_ok _ (fun l => l[row]?.getD false)]
    · congr 1
      unfold bothActive
      rw [List.nil_append, List.map_map]
      apply List.map_congr_left
      intro j _
      simp [hrow]
    · intro l hl
      simp only [List.nil_append, List.mem_map, List.mem_range] at hl
      obtain ⟨j, _, rfl⟩ := hl
      simp [hrow]

theorem flagText_eq : ∀ (l : List Bool), l ≠ [] →
    flagText l = ", ".intercalate (l.map fun b => if b then "1" else "0") ++ "\n"
  | [], h => absurd rfl h
  | [b], _ => by simp [flagText]
  | b :: c :: l, _ => by
    have ih := flagText_eq (c :: l) (by simp)
    unfold flagText
    rw [ih]
    simp only [List.map_cons, String.intercalate_cons_cons, String.append_assoc]

theorem rawText_eq (s : Active) (g : Nat → List Bool) (hs : s.active ≠ []) : ∀ (rows : List Nat),
    (∀ r ∈ rows, sample s r = .ok (g r)) → (∀ r ∈ rows, g r ≠ []) →
    rawText s rows = .ok (String.join (rows.map fun r => line r (g r)))
  | [], _, _ => rfl
  | r :: l, h, h2 => by
    unfold rawText
    rw [h r (by simp), rawText_eq s g hs l (fun x hx => h x (by simp [hx])) fun x hx => h2 x (by simp [hx])]
    have hs' : s.active.isEmpty = false := by simpa using hs
    simp only [hs', flagText_eq _ (h2 r (by simp)), line, List.map_cons, String.join_cons, String.append_assoc]
    simp [String.append_assoc]

theorem keyLt_irrefl : ∀ a, keyLt a a = false
  | [] => rfl
  | a :: l => by simp [keyLt, keyLt_irrefl l]

theorem keyLt_trans : ∀ {a b c : List Bool}, keyLt a b = true → keyLt b c = true → keyLt a c = true
  | [], b, [], h1, h2 => by cases b <;> simp [keyLt] at h1 h2
  | [], _, _ :: _, _, _ => rfl
  | _ :: _, [], _, h1, _ => by simp [keyLt] at h1
  | _ :: _, _ :: _, [], _, h2 => by simp [keyLt] at h2
  | a :: l, b :: m, c :: k, h1, h2 => by
    unfold keyLt at h1 h2 ⊢
    have ih := @keyLt_trans l m k
    cases a <;> cases b <;> cases c <;> simp_all

theorem keyLt_total : ∀ {a b : List Bool}, a ≠ b → keyLt a b = false → keyLt b a = true
  | [], [], h, _ => absurd rfl h
  | [], _ :: _, _, h => by simp [keyLt] at h
  | _ :: _, [], _, _ => rfl
  | a :: l, b :: m, h1, h2 => by
    unfold keyLt at h2 ⊢
    have ih := @keyLt_total l m
    cases a <;> cases b <;> simp_all

/-- A map that holds how often each key occurred: the keys increase, and exactly the keys that occurred are there. -/
def Tally (cnt : List Bool → Nat) (h : List (List Bool × Nat)) : Prop :=
  h.Pairwise (fun a b => keyLt a.1 b.1 = true) ∧ ∀ v c, (v, c) ∈ h ↔ 0 < c ∧ c = cnt v

theorem mem_bump {key : List Bool} : ∀ {h : List (List Bool × Nat)}, h.Pairwise (fun a b => keyLt a.1 b.1 = true) →
    ∀ v c, (v, c) ∈ bump key h ↔ (v ≠ key ∧ (v, c) ∈ h) ∨
      (v = key ∧ ((∃ d, (key, d) ∈ h ∧ c = u64 (d + 1)) ∨ ((∀ d, (key, d) ∉ h) ∧ c = 1)))
  | [], _, v, c => by simp [bump]
  | (k, d) :: h, hp, v, c => by
    obtain ⟨hk, hp'⟩ := List.pairwise_cons.1 hp
    unfold bump
    by_cases h1 : key = k
    · subst h1
      have hno : ∀ d', (key, d') ∉ h := fun d' hd => by
        have := hk _ hd
        rw [keyLt_irrefl] at this; simp at this
      rw [if_pos rfl, List.mem_cons]
      constructor
      · rintro (h2 | h2)
        · simp only [Prod.mk.injEq] at h2
          exact Or.inr ⟨h2.1, Or.inl ⟨d, by simp, h2.2⟩⟩
        · refine Or.inl ⟨?_, by simp [h2]⟩
          rintro rfl; exact hno _ h2
      · rintro (⟨h2, h3⟩ | ⟨rfl, ⟨d', h3, rfl⟩ | ⟨h3, rfl⟩⟩)
        · rcases List.mem_cons.1 h3 with h4 | h4
          · simp only [Prod.mk.injEq] at h4; exact absurd h4.1 h2
          · exact Or.inr h4
        · rcases List.mem_cons.1 h3 with h4 | h4
          · simp only [Prod.mk.injEq, true_and] at h4; left; rw [h4]
          · exact absurd h4 (hno d')
        · exact absurd (by simp : (v, d) ∈ (v, d) :: h) (h3 d)
    · rw [if_neg h1]
      by_cases h2 : keyLt key k = true
      · have hno : ∀ d', (key, d') ∉ (k, d) :: h := fun d' hd => by
          rcases List.mem_cons.1 hd with h4 | h4
          · simp only [Prod.mk.injEq] at h4; exact h1 h4.1
          · have := keyLt_trans h2 (hk _ h4)
            rw [keyLt_irrefl] at this; simp at this
        rw [if_pos h2, List.mem_cons]
        constructor
        · rintro (h3 | h3)
          · simp only [Prod.mk.injEq] at h3
            exact Or.inr ⟨h3.1, Or.inr ⟨hno, h3.2⟩⟩
          · refine Or.inl ⟨?_, h3⟩
            rintro rfl; exact hno _ h3
        · rintro (⟨_, h3⟩ | ⟨rfl, ⟨d', h3, _⟩ | ⟨_, rfl⟩⟩)
          · exact Or.inr h3
          · exact absurd h3 (hno d')
          · exact Or.inl rfl
      · rw [if_neg h2, List.mem_cons, mem_bump hp' v c]
        constructor
        · rintro (h3 | ⟨h3, h4⟩ | ⟨rfl, ⟨d', h3, rfl⟩ | ⟨h3, rfl⟩⟩)
          · simp only [Prod.mk.injEq] at h3
            refine Or.inl ⟨?_, by simp [h3.1, h3.2]⟩
            rw [h3.1]; exact fun h => h1 h.symm
          · exact Or.inl ⟨h3, by simp [h4]⟩
          · exact Or.inr ⟨rfl, Or.inl ⟨d', by simp [h3], rfl⟩⟩
          · refine Or.inr ⟨rfl, Or.inr ⟨fun d' hd => ?_, rfl⟩⟩
            rcases List.mem_cons.1 hd with h4 | h4
            · simp only [Prod.mk.injEq] at h4; exact h1 h4.1
            · exact h3 d' h4
        · rintro (⟨h3, h4⟩ | ⟨rfl, ⟨d', h3, rfl⟩ | ⟨h3, rfl⟩⟩)
          · rcases List.mem_cons.1 h4 with h5 | h5
            · exact Or.inl h5
            · exact Or.inr (Or.inl ⟨h3, h5⟩)
          · rcases List.mem_cons.1 h3 with h5 | h5
            · simp only [Prod.mk.injEq] at h5; exact absurd h5.1 h1
            · exact Or.inr (Or.inr ⟨rfl, Or.inl ⟨d', h5, rfl⟩⟩)
          · exact Or.inr (Or.inr ⟨rfl, Or.inr ⟨fun d' hd => h3 d' (by simp [hd]), rfl⟩⟩)

theorem bump_sorted {key : List Bool} : ∀ {h : List (List Bool × Nat)},
    h.Pairwise (fun a b => keyLt a.1 b.1 = true) → (bump key h).Pairwise (fun a b => keyLt a.1 b.1 = true)
  | [], _ => by simp [bump]
  | (k, d) :: h, hp => by
    obtain ⟨hk, hp'⟩ := List.pairwise_cons.1 hp
    unfold bump
    by_cases h1 : key = k
    · rw [if_pos h1]
      exact List.pairwise_cons.2 ⟨hk, hp'⟩
    · rw [if_neg h1]
      by_cases h2 : keyLt key k = true
      · rw [if_pos h2]
        refine List.pairwise_cons.2 ⟨fun x hx => ?_, hp⟩
        rcases List.mem_cons.1 hx with rfl | hx
        · exact h2
        · exact keyLt_trans h2 (hk x hx)
      · rw [if_neg h2]
        refine List.pairwise_cons.2 ⟨?_, bump_sorted hp'⟩
        rintro ⟨v, c⟩ hx
        rcases (mem_bump hp' v c).1 hx with ⟨_, h3⟩ | ⟨rfl, _⟩
        · exact hk _ h3
        · exact keyLt_total h1 (by simpa using h2)

theorem bump_tally {cnt : List Bool → Nat} {h : List (List Bool × Nat)} (ht : Tally cnt h) (key : List Bool)
    (hlt : cnt key + 1 < 18446744073709551616) :
    Tally (Function.update cnt key (cnt key + 1)) (bump key h) := by
  refine ⟨bump_sorted ht.1, fun v c => ?_⟩
  rw [mem_bump ht.1 v c]
  by_cases hv : v = key
  · subst hv
    rw [Function.update_self]
    simp only [ht.2]
    constructor
    · rintro (⟨h1, _⟩ | ⟨_, ⟨d, ⟨h2, rfl⟩, rfl⟩ | ⟨h2, rfl⟩⟩)
      · exact absurd rfl h1
      · rw [u64_of_lt hlt]; exact ⟨by omega, rfl⟩
      · have h0 : cnt v = 0 := by
          by_contra hne
          exact h2 (cnt v) ⟨Nat.pos_of_ne_zero hne, rfl⟩
        exact ⟨by omega, by omega⟩
    · rintro ⟨_, rfl⟩
      right
      refine ⟨trivial, ?_⟩
      by_cases h0 : cnt v = 0
      · right
        exact ⟨fun d hd => by omega, by omega⟩
      · left
        exact ⟨cnt v, ⟨Nat.pos_of_ne_zero h0, rfl⟩, (u64_of_lt hlt).symm⟩
  · rw [Function.update_of_ne hv, ht.2]
    simp [hv]

theorem consolidate_tally (s : Active) (g : Nat → List Bool) : ∀ (rows : List Nat) (cnt : List Bool → Nat)
    (h : List (List Bool × Nat)), (∀ r ∈ rows, sample s r = .ok (g r)) → Tally cnt h →
    (∀ v, cnt v + rows.length < 18446744073709551616) →
    ∃ h', consolidate s rows h = .ok h' ∧ Tally (fun v => cnt v + (rows.map g).count v) h'
  | [], cnt, h, _, ht, _ => ⟨h, rfl, by simpa using ht⟩
  | r :: l, cnt, h, hs, ht, hl => by
    simp only [List.length_cons] at hl
    have h1 := hl (g r)
    obtain ⟨h', e, t⟩ := consolidate_tally s g l _ (bump (g r) h) (fun x hx => hs x (by simp [hx]))
      (bump_tally ht (g r) (by omega)) (fun v => by
        have := hl v
        by_cases hv : v = g r
        · subst hv; rw [Function.update_self]; omega
        · rw [Function.update_of_ne hv]; omega)
    refine ⟨h', by unfold consolidate; rw [hs r (by simp)]; exact e, ?_⟩
    have : (fun v => Function.update cnt (g r) (cnt (g r) + 1) v + (l.map g).count v) =
        fun v => cnt v + ((r :: l).map g).count v := by
      funext v
      rw [List.map_cons]
      by_cases hv : v = g r
      · subst hv; rw [Function.update_self, List.count_cons_self]; omega
      · rw [Function.update_of_ne hv, List.count_cons_of_ne (fun h => hv h.symm)]
    rwa [this] at t

theorem mapText_eq : ∀ (h : List (List Bool × Nat)), (∀ p ∈ h, p.1 ≠ []) →
    mapText h = String.join (h.map fun p => line p.2 p.1)
  | [], _ => rfl
  | (v, c) :: l, h => by
    unfold mapText
    rw [mapText_eq l fun p hp => h p (by simp [hp]), flagText_eq v (h (v, c) (by simp))]
    simp [line, String.append_assoc]

theorem keyLt_iff : ∀ {a b : List Bool}, keyLt a b = true ↔ a < b
  | [], [] => by simp [keyLt]
  | [], _ :: _ => by simp [keyLt]
  | _ :: _, [] => by simp [keyLt]
  | a :: l, b :: m => by
    rw [List.cons_lt_cons_iff, ← keyLt_iff]
    cases a <;> cases b <;> simp [keyLt]

/-- **C105 (activity of rows).** If every iteration reports every row exactly once, in any order, and `init_iter` is
called between iterations, then `write_raw` writes one line for each of the first `cnt` rows, with a 1 for exactly the
iterations in which the row was active and had been active in the iteration before; `write_consolidated` writes one
line for each distinct row of flags, in increasing order, with the number of rows that have it. -/
theorem C105_activity (n : Nat) (hn : n < 18446744073709551616) (v : Nat → Nat → Bool) (os : List (List Nat))
    (hne : os ≠ []) (hp : ∀ o ∈ os, o.Perm (List.range n)) (cnt : Nat) :
    ∃ s, reportIters (activeCreate n) (itersOf v 0 os) = .ok s ∧
      writeRaw true s cnt =
        .ok (String.join ((List.range (min cnt n)).map fun row => line row (bothActive v row os.length))) ∧
      ∃ h : List (List Bool × Nat), writeConsolidated true s cnt = .ok (String.join (h.map fun p => line p.2 p.1)) ∧
        h.Pairwise (fun a b => a.1 < b.1) ∧
        ∀ flags c, (flags, c) ∈ h ↔
          0 < c ∧ c = ((List.range (min cnt n)).filter fun row => bothActive v row os.length = flags).length := by
  obtain ⟨s, e, en, el, hs⟩ := active_sample n v os hne hp
  have hlen : 0 < os.length := List.length_pos_iff.2 hne
  have hmin : (if s.nrow < cnt then s.nrow else cnt) = min cnt n := by
    rw [en]; split_ifs with h
    · rw [min_eq_right h.le]
    · rw [min_eq_left (not_lt.1 h)]
  have hin : ∀ r ∈ List.range (min cnt n), sample s r = .ok (bothActive v r os.length) := fun r hr =>
    hs r (lt_of_lt_of_le (List.mem_range.1 hr) (min_le_right _ _))
  have hb : ∀ r, bothActive v r os.length ≠ [] := fun r h => by
    have := congrArg List.length h
    simp [bothActive] at this
    exact hne this
  refine ⟨s, e, ?_, ?_⟩
  · unfold writeRaw
    rw [hmin, rawText_eq s (fun r => bothActive v r os.length) (fun h => by rw [h] at el; simp at el; omega) _ hin
      fun r _ => hb r]
    rfl
  · obtain ⟨h, eh, ht⟩ := consolidate_tally s (fun r => bothActive v r os.length) (List.range (min cnt n)) (fun _ => 0) []
      hin ⟨List.Pairwise.nil, by simp; omega⟩ (fun _ => by
        have := min_le_right cnt n
        simp only [List.length_range]; omega)
    have hmem : ∀ flags c, (flags, c) ∈ h ↔
        0 < c ∧ c = ((List.range (min cnt n)).filter fun row => bothActive v row os.length = flags).length := by
      intro flags c
      rw [ht.2]
      dsimp only
      rw [Nat.zero_add, List.count, List.countP_map, List.countP_eq_length_filter]
      simp only [Function.comp_def]
      have : ∀ a b : List Bool, (a == b) = decide (a = b) := fun a b => by
        by_cases h : a = b <;> simp [h]
      simp only [this]
    refine ⟨h, ?_, ht.1.imp fun h => keyLt_iff.1 h, hmem⟩
    unfold writeConsolidated
    rw [hmin, eh]
    simp only [if_true]
    rw [mapText_eq]
    rintro ⟨flags, c⟩ hc
    obtain ⟨h1, h2⟩ := (hmem flags c).1 hc
    rw [h2] at h1
    obtain ⟨r, hr⟩ := List.exists_mem_of_length_pos h1
    have := (List.mem_filter.1 hr).2
    simp only [decide_eq_true_eq] at this
    rw [← this]
    exact hb r

/-- **C105, violated when a row is reported twice.** In the very first iteration, where no row can have been active
before, the second report counts the first as the previous iteration. -/
theorem C105_twice_violated :
    (reportIters (activeCreate 1) [[(0, true), (0, true)]]).map (fun s => sample s 0) = .ok (.ok [true]) := by
  decide +kernel

/-- **C105, violated when a row is left out.** A row active in the first and third iteration and not reported in the
second is shown as active in the third and the one before. -/
theorem C105_skipped_violated :
    (reportIters (activeCreate 1) [[(0, true)], [], [(0, true)]]).map (fun s => sample s 0) =
      .ok (.ok [false, false, true]) := by
  decide +kernel

/-- **C105, violated for a file that cannot be opened.** Neither function checks `fopen`: whatever the object, the
null pointer is passed to `fwrite`. -/
theorem C105_unwritable_violated (s : Active) (cnt : Nat) (t : String) :
    writeRaw false s cnt ≠ .ok t ∧ writeConsolidated false s cnt ≠ .ok t := by
  unfold writeRaw writeConsolidated
  constructor
  · cases rawText s _ <;> simp
  · cases consolidate s _ _ <;> simp

/-- Four rows, three iterations in different orders; three of the rows are written. -/
example :
    (match reportIters (activeCreate 4) (itersOf (fun i r => decide ((i + r) % 3 ≠ 0)) 0
        [[0, 1, 2, 3], [3, 1, 0, 2], [2, 3, 1, 0]]) with
      | .ok s => some ((List.range 4).map (sample s), consolidate s (List.range 4) [])
      | .error _ => none) =
    some ([.ok [false, false, true], .ok [false, true, false], .ok [false, false, false], .ok [false, false, true]],
      .ok [([false, false, false], 1), ([false, false, true], 2), ([false, true, false], 1)]) ∧
    (∀ o ∈ [[0, 1, 2, 3], [3, 1, 0, 2], [2, 3, 1, 0]], o.Perm (List.range 4)) := by
  decide +kernel

/-- A line of output. -/
example : line 17 [false, true, true] = "17, 0, 1, 1\n" := by decide +kernel

end Knor.Stats
