import Verif.Model.HierDriver
import Verif.Spec.HierCall
import Verif.Lemmas.ScaledDriver
import Verif.Props.Driver
import Verif.Props.Hclust
import Verif.Lemmas.Bisect

/-! Whole calls of the hierarchical coordinators. -/

namespace Knor.Hclust

open Knor Knor.Par Knor.Spec Knor.Compact

variable {R D : Type _} {n : Nat}

/-- The compacted sizes are the positive ones, with the same sum. -/
theorem remapLoop_shape : ∀ (cs : List Int) (i : Nat) (out : List Nat) (m : IdMap) (out' : List Nat) (m' : IdMap),
    remapLoop cs i out m = .ok (out', m') →
    out'.length = out.length + (cs.filter fun x => decide (x > 0)).length ∧ (out'.sum : Int) = out.sum + cs.sum := by
  intro cs
  induction cs with
  | nil =>
    intro i out m out' m' h
    cases h
    simp
  | cons x cs ih =>
    intro i out m out' m' h
    unfold remapLoop at h
    split at h
    · rename_i h0
      split at h
      · rename_i h1
        obtain ⟨e1, e2⟩ := ih _ _ _ _ _ h
        constructor
        · rw [e1, List.filter_cons_of_pos (by simpa using h1)]
          simp
          omega
        · rw [e2]
          simp
          omega
      · rename_i h1
        obtain ⟨e1, e2⟩ := ih _ _ _ _ _ h
        constructor
        · rw [e1, List.filter_cons_of_neg (by simpa using h1)]
        · rw [e2, List.sum_cons]
          omega
    · cases h

/-- The result object of a finished run, and what the assertions of `verify_consistency` say about it. -/
theorem Finished.report [Field R] {m : Mode} {c : Cfg R D n} {s : St R n} (h : Finished m c s) (hs : Sane c)
    {ids : List Nat} (hnd : ids.Nodup) (hids : ∀ i, i ∈ ids ↔ (s.final i).isSome) :
    ∃ res, result c ids s = .ok res ∧ Conserved c.nrow res ∧ res.k = ids.length ∧
      verify c ids s = (if res.k = res.counts.length then .ok s else .error .assertFail) ∧
      (res.k = res.counts.length → ∀ i, (s.final i).isSome → ∃ r, r < c.nrow ∧ s.assign r = i) := by
  have hM : c.maxNodes ≤ 4294967296 := by
    have := sizes (c := c) hs.two hs.kLt
    have := hs.kLt
    omega
  obtain ⟨res, e, hk⟩ := result_total h hs.rows hM hids
  obtain ⟨res', e', hcons⟩ := h.conserved hs hids
  rw [e] at e'; cases e'
  have hcnt : res.counts.length = (s.counts.filter fun x => decide (x > 0)).length ∧
      (res.counts.sum : Int) = s.counts.sum := by
    have e1 := e
    unfold result hierResult at e1
    cases hr : remapLoop s.counts 0 [] (fun _ => none) with
    | error x => rw [hr] at e1; cases e1
    | ok q =>
      obtain ⟨out, mm⟩ := q
      rw [hr] at e1
      dsimp only at e1
      obtain ⟨h1, h2⟩ := remapLoop_shape _ _ _ _ _ _ hr
      split at e1
      · cases e1
      · cases e1
        refine ⟨?_, ?_⟩
        · dsimp only; rw [h1]; simp
        · dsimp only; rw [h2]; simp
  refine ⟨res, e, hcons, hk, ?_, ?_⟩
  · unfold verify
    rw [← hcnt.1, ← hcnt.2, hcons.2.1, ← hk]
    by_cases hq : res.k = res.counts.length
    · rw [if_neg (by simpa using hq), if_neg (by simp), if_pos hq]
    · rw [if_pos (by simpa using hq), if_neg hq]
  · intro hq i hi
    obtain ⟨Q, hQ, hmem, e2⟩ := run_eq h.hist (by rw [h.lenC]; exact hM)
      (ids.map fun i => (i, (s.final i).getD fun _ => 0))
    have hlen : res.counts.length = Q.length := by
      unfold result at e
      rw [e2] at e
      split at e
      · cases e
      · cases e; simp
    have hsub : ∀ q ∈ Q, q ∈ ids := fun q hq => by
      obtain ⟨r, hr, rfl⟩ := List.mem_map.1 ((hmem q).1 hq)
      exact (hids _).2 (h.named r (List.mem_range.1 hr))
    have hperm : Q.Perm ids := (hQ.subperm hsub).perm_of_length_le (by omega)
    obtain ⟨r, hr, hri⟩ := List.mem_map.1 ((hmem i).1 (hperm.mem_iff.2 ((hids i).2 hi)))
    exact ⟨r, List.mem_range.1 hr, hri⟩

theorem meanOf_data [Field R] {N : Nat} {data data' : Nat → Row R n} (h : ∀ r, r < N → data r = data' r)
    (a : Nat → Nat) (i : Nat) : meanOf N data a i = meanOf N data' a i := by
  funext j
  unfold meanOf
  congr 2
  exact Finset.sum_congr rfl fun r hr => by rw [h r (Finset.mem_range.1 (Finset.mem_filter.1 hr).1)]

theorem meansWithin_data [Field R] [LT D] {N : Nat} {data data' : Nat → Row R n} (h : ∀ r, r < N → data r = data' r)
    {dist : Row R n → Row R n → D} {big : D} (hw : MeansWithin N data dist big) : MeansWithin N data' dist big := by
  intro r hr a i
  rw [← h r hr, ← meanOf_data h]
  exact hw r hr a i

/-- The zero vector is the mean of no rows. -/
theorem meansWithin_zero [Field R] [LT D] {N : Nat} {data : Nat → Row R n} {dist : Row R n → Row R n → D} {big : D}
    (hw : MeansWithin N data dist big) {r : Nat} (hr : r < N) : dist (data r) (fun _ => 0) < big := by
  have := hw r hr (fun _ => 0) 1
  have e : meanOf N data (fun _ => 0) 1 = fun _ => 0 := by
    funext j
    unfold meanOf size
    rw [if_pos]
    simp
  rwa [e] at this

end Knor.Hclust

namespace Knor.Driver

open Knor Knor.Spec Knor.Io Knor.Partition Knor.Par Knor.Kmeans Knor.Init Knor.Hclust Knor.Compact

variable {R S B : Type _} {n : Nat}

/-- The names that the library accepts. -/
theorem initNames (s : String) : (∃ it, getInit s = .ok it) ↔ s ∈ ["random", "forgy", "kmeanspp", "none"] := by
  unfold getInit
  simp only [List.mem_cons, List.not_mem_nil, or_false]
  split_ifs <;> simp_all

theorem initName_error {s : String} (h : s ∉ ["random", "forgy", "kmeanspp", "none"]) :
    getInit s = .error .throws := by
  simp only [List.mem_cons, List.not_mem_nil, or_false, not_or] at h
  simp [getInit, h]

theorem distNames (s : String) : (∃ m, getDist s = .ok m) ↔ s ∈ ["eucl", "cos", "taxi", "sqeucl"] := by
  unfold getDist
  simp only [List.mem_cons, List.not_mem_nil, or_false]
  split_ifs <;> simp_all

theorem distName_error {s : String} (h : s ∉ ["eucl", "cos", "taxi", "sqeucl"]) : getDist s = .error .throws := by
  simp only [List.mem_cons, List.not_mem_nil, or_false, not_or] at h
  simp [getDist, h]

theorem floor_two {k : Nat} : hclustFloor k / 2 < 1 ↔ k < 2 := by
  unfold hclustFloor
  constructor
  · intro h
    by_contra hc
    have : 1 ≤ Nat.log2 k := (Nat.le_log2 (by omega)).2 (by omega)
    have : 2 ^ 1 ≤ 2 ^ Nat.log2 k := Nat.pow_le_pow_right (by decide) this
    omega
  · intro h
    have : k = 0 ∨ k = 1 := by omega
    rcases this with rfl | rfl <;> decide

/-- A call whose options are known runs on rows that agree with those of the matrix. -/
theorem hierCall_ok [Field R] [LinearOrder R] {grow : Bool} {dist : Dist.Metric → Row R n → Row R n → R} {big : R}
    {c : Codec R B} {rng : Rng R S 2} {order : St R n → List Nat} {kmax minSize : Nat}
    {run : Cfg R R n → HInit R n → Res (Option (St R n))} {a : Call R B} {m : Nat → Nat → R}
    {given : Option (Nat → Nat → R)} (h : HierReady n c rng kmax a m given) (hk : 2 ≤ kmax)
    {it : InitT} {met : Dist.Metric} (hi : getInit a.init = .ok it) (hd : getDist a.dist = .ok met) :
    ∃ cfg hi, (∀ bind, hierCall bind grow dist big c rng order kmax minSize run a
        = hierFinish bind order cfg (run cfg hi)) ∧
      Sane cfg ∧ cfg.nrow = a.nrow ∧ cfg.reqThreads = a.nthreads ∧ cfg.kmax = kmax ∧ cfg.maxIters = a.maxIters ∧
      cfg.minSize = minSize ∧ cfg.tol = a.tol ∧ cfg.dist = dist met ∧ cfg.big = big ∧
      (∀ r, r < a.nrow → cfg.data r = matRows m r) ∧
      (MeansWithin a.nrow (matRows m) (dist met) big → (∀ g, it = .none → given = some g → ∀ r, r < a.nrow →
          ∀ i, i < 2 → dist met (matRows m r) (matRows g i) < big) →
        MeansWithin cfg.nrow cfg.data cfg.dist cfg.big ∧ (it = .forgy ∨ it = .none → Startable cfg hi)) ∧
      (it = .random ∨ it = .plusplus → hi = .other) ∧
      (it = .forgy ∨ it = .none → ∃ m0 m1, startCents cfg hi = some (m0, m1) ∧
        HierStartsAt it (matRows m) rng given m0 m1) := by
  obtain ⟨ws, el, hrows⟩ := load_ok h.codec m a h.rows h.threads h.cols h.rowsLt h.bytes h.holds
  have hmeans : ∃ g : Row R n × Row R n, hierMeans a.centers = .ok g ∧
      (∀ gg, given = some gg → g = (matRows gg 0, matRows gg 1)) ∧
      (given = none → g = (fun _ => 0, fun _ => 0)) := by
    unfold hierMeans
    rw [h.given]
    cases given with
    | none => exact ⟨_, rfl, fun g h => (by cases h), fun _ => rfl⟩
    | some g =>
      refine ⟨(matRows g 0, matRows g 1), ?_, fun g' h => by cases h; rfl, fun h => by cases h⟩
      dsimp only [Option.map_some]
      rw [if_neg (by rw [length_rowsFrom]; omega)]
      congr 2
      · funext j
        have := getD_rowsFrom (n := n) g (N := 2) (r := 0) (by decide) j
        rw [Nat.zero_mul, Nat.zero_add] at this
        exact this
      · funext j
        have := getD_rowsFrom (n := n) g (N := 2) (r := 1) (by decide) j
        rw [Nat.one_mul] at this
        exact this
  obtain ⟨g, eg, hg1, hg2⟩ := hmeans
  refine ⟨hierCfg (dist met) big (rowsIn ws a.nrow a.nthreads) a kmax minSize grow, hierStart rng g it, ?_,
    ⟨h.rows, h.rowsLt, h.threads, hk, h.kLt⟩, rfl, rfl, rfl, rfl, rfl, rfl, rfl, rfl, hrows, ?_, ?_, ?_⟩
  · intro bind
    unfold hierCall
    rw [hi]; dsimp only
    rw [hd]; dsimp only
    rw [if_neg (by rw [floor_two]; omega), eg]; dsimp only
    rw [el]
  · intro hw hg
    have hw' : MeansWithin a.nrow (rowsIn (n := n) ws a.nrow a.nthreads) (dist met) big :=
      meansWithin_data (fun r hr => (hrows r hr).symm) hw
    refine ⟨hw', ?_⟩
    rintro (rfl | rfl)
    · exact ⟨h.rng.row _, h.rng.row _⟩
    · intro r hr
      show dist met (rowsIn ws a.nrow a.nthreads r) g.1 < big ∧ dist met (rowsIn ws a.nrow a.nthreads r) g.2 < big
      have hr' : r < a.nrow := hr
      cases hgv : given with
      | none =>
        rw [hg2 hgv]
        exact ⟨meansWithin_zero hw' hr', meansWithin_zero hw' hr'⟩
      | some gg =>
        rw [hg1 gg hgv, hrows r hr']
        exact ⟨hg gg rfl hgv r hr' 0 (by decide), hg gg rfl hgv r hr' 1 (by decide)⟩
  · rintro (rfl | rfl) <;> rfl
  · rintro (rfl | rfl)
    · exact ⟨_, _, rfl, Or.inl ⟨rfl, hrows _ (h.rng.row _), hrows _ (h.rng.row _)⟩⟩
    · refine ⟨_, _, rfl, Or.inr ⟨rfl, fun gg hgg => ?_, fun hgn => ?_⟩⟩
      · rw [hg1 gg hgg]; exact ⟨rfl, rfl⟩
      · rw [hg2 hgn]; exact ⟨rfl, rfl⟩

/-- Calls that are refused before anything is read. -/
theorem hierCall_refused [Field R] [LinearOrder R] {bind grow : Bool} {dist : Dist.Metric → Row R n → Row R n → R}
    {big : R} {c : Codec R B} {rng : Rng R S 2} {order : St R n → List Nat} {kmax minSize : Nat}
    {run : Cfg R R n → HInit R n → Res (Option (St R n))} {a : Call R B} :
    ((a.init ∉ ["random", "forgy", "kmeanspp", "none"] ∨ a.dist ∉ ["eucl", "cos", "taxi", "sqeucl"]) →
      hierCall bind grow dist big c rng order kmax minSize run a = .error .throws) ∧
    (a.init ∈ ["random", "forgy", "kmeanspp", "none"] → a.dist ∈ ["eucl", "cos", "taxi", "sqeucl"] → kmax < 2 →
      hierCall bind grow dist big c rng order kmax minSize run a = .error .assertFail) := by
  constructor
  · intro h
    unfold hierCall
    by_cases hi : a.init ∈ ["random", "forgy", "kmeanspp", "none"]
    · obtain ⟨it, hit⟩ := (initNames _).2 hi
      rw [hit]; dsimp only
      rw [distName_error (h.resolve_left fun hh => hh hi)]
    · rw [initName_error hi]
  · intro hi hd hk
    obtain ⟨it, hit⟩ := (initNames _).2 hi
    obtain ⟨m, hm⟩ := (distNames _).2 hd
    unfold hierCall
    rw [hit]; dsimp only
    rw [hm]; dsimp only
    rw [if_pos (floor_two.2 hk)]

/-- The end of a call, from a finished run. -/
theorem hierFinish_ok [Field R] {mode : Mode} {order : St R n → List Nat} {cfg : Cfg R R n} {s : St R n}
    (h : Finished mode cfg s) (hs : Sane cfg) (hnd : (order s).Nodup) (hids : ∀ i, i ∈ order s ↔ (s.final i).isSome) :
    ∃ res, hierFinish true order cfg (.ok (some s)) = .ok (some res) ∧
      hierFinish false order cfg (.ok (some s))
        = (if res.k = res.counts.length then .ok (some res) else .error .assertFail) ∧
      Conserved cfg.nrow res ∧ res.k = (order s).length ∧ result cfg (order s) s = .ok res ∧
      (res.k = res.counts.length → ∀ i, (s.final i).isSome → ∃ r, r < cfg.nrow ∧ s.assign r = i) := by
  obtain ⟨res, e, h1, h2, h3, h4⟩ := h.report hs hnd hids
  refine ⟨res, ?_, ?_, h1, h2, e, h4⟩
  · unfold hierFinish
    dsimp only
    rw [if_pos rfl]
    dsimp only
    rw [e]
  · unfold hierFinish
    dsimp only
    rw [if_neg (by decide), h3]
    split_ifs
    · dsimp only
      rw [e]
    · rfl

end Knor.Driver
