import Mathlib.Analysis.SpecialFunctions.Log.Basic
import Mathlib.Analysis.SpecialFunctions.Sqrt
import Mathlib.Analysis.Real.Pi.Bounds
import Mathlib.Data.List.Sort
import Verif.Model.Linalg
import Verif.Model.Xmeans

/-!
# The decisions of x-means and g-means

Models `xmeans_coordinator::bic`, the Anderson-Darling test of libkcommon/AndersonDarling.hpp and the
decisions that `partition_decision` takes with them, over exact real numbers.

* The distances and projections are given as functions of the row (`partition_dist`, `nearest_cdist`); which
  values the iterations leave in them is not modelled, so what is proved of the decisions holds for any.
* `phi`, the distribution function `0.5 * erfc(-x / sqrt 2)`, is a parameter.
* Where the code computes a NaN (a sample of one number, or of equal numbers) the statistic is `none`;
  comparisons with it are false.  Infinities (a sum of distances that is zero) are outside the model: the
  theorems assume positive sums.
-/

namespace Knor.Score

open Knor

/-! ## The Bayesian information criterion -/

/-- The two scores of a split.  Models libman/xmeans_coordinator.hpp:30-49. -/
structure SplitScore where
  pscore : ℝ
  cscore : ℝ

/-- The rows of a cluster in increasing order: an entry of `memb_cltrs`.
Models libman/xmeans_coordinator.hpp:91-96 and libman/xmeans_coordinator.cpp:169. -/
def members (nrow : Nat) (assign : Nat → Nat) (id : Nat) : List Nat :=
  (List.range nrow).filter fun r => assign r = id

/-- The sums over the rows of the two sides, in the order of the code.
Models libman/xmeans_coordinator.cpp:101-112. -/
def total (d : Nat → ℝ) (ml mr : List Nat) : ℝ :=
  mr.foldl (fun s r => s + d r) (ml.foldl (fun s r => s + d r) 0)

/-- `bic`; `dmin` is `std::numeric_limits<double>::min()`, `nl` and `nr` are the recorded sizes of the two
sides.  Models libman/xmeans_coordinator.cpp:93-146. -/
noncomputable def bic (dmin : ℝ) (ncol : Nat) (nl nr : Int) (pd cd : Nat → ℝ) (ml mr : List Nat) : SplitScore :=
  let pK : ℝ := 1
  let cK : ℝ := 2
  let N : ℝ := (nl : ℝ) + (nr : ℝ)
  let psigma := total pd ml mr
  let csigma := total cd ml mr
  { pscore :=
      if N - pK > 0 then
        let psigma := psigma / (N - pK)
        let p := (pK - 1) + ncol * pK + 1
        let L := N * Real.log N - N * Real.log N - N * Real.log (2 * Real.pi) * (1 / 2) -
          N * ncol * Real.log psigma * (1 / 2) - (N - pK) * (1 / 2)
        L - p * (1 / 2) * Real.log N
      else dmin
    cscore :=
      if N - cK > 0 then
        let csigma := csigma / (N - cK)
        let p := (cK - 1) + ncol * cK + 1
        let L := N * Real.log N - nl * Real.log N - N * Real.log (2 * Real.pi) * (1 / 2) -
          N * ncol * Real.log csigma * (1 / 2) - (N - cK) * (1 / 2)
        let c := L - p * (1 / 2) * Real.log N
        let L := N * Real.log N - nr * Real.log N - N * Real.log (2 * Real.pi) * (1 / 2) -
          N * ncol * Real.log csigma * (1 / 2) - (N - cK) * (1 / 2)
        c + (L - p * (1 / 2) * Real.log N)
      else dmin }

/-- The split is taken back.  Models libman/xmeans_coordinator.cpp:194. -/
def SplitScore.rejects (x : SplitScore) : Prop := x.pscore > x.cscore

open Classical in
/-- The partitions whose split x-means takes back, given the two arrays of distances.
Models libman/xmeans_coordinator.cpp:148-194. -/
noncomputable def bicRejected {R : Type _} {n : Nat} (dmin : ℝ) (nrow : Nat) (pd cd : Nat → ℝ) (s : Hclust.St R n) :
    List Nat :=
  s.keys.filter fun p =>
    match s.hc p with
    | none => false
    | some nd => (bic dmin n (s.counts.getD nd.zero 0) (s.counts.getD nd.one 0) pd cd
        (members nrow s.assign nd.zero) (members nrow s.assign nd.one)).rejects

/-! ## The Anderson-Darling test -/

/-- The constants of `compute_critical_values`.  Models libkcommon/AndersonDarling.hpp:37. -/
noncomputable def avals : List ℝ := [576 / 1000, 656 / 1000, 787 / 1000, 918 / 1000, 1092 / 1000]

/-- `compute_critical_values`.  Models libkcommon/AndersonDarling.hpp:36-42. -/
noncomputable def criticalValues (N : ℝ) : List ℝ :=
  let divisor := 1 + 4 / N - 25 / (N * N)
  avals.map fun a => a / divisor

/-- `X_avg`.  Models libkcommon/AndersonDarling.hpp:46-47. -/
noncomputable def average (X : List ℝ) : ℝ := X.foldl (· + ·) 0 / (X.length : ℝ)

/-- `X_sig`.  Models libkcommon/AndersonDarling.hpp:49-57. -/
noncomputable def deviation (X : List ℝ) : ℝ :=
  Real.sqrt (X.foldl (fun s x => s + (x - average X) * (x - average X)) 0 / ((X.length : ℝ) - 1))

/-- The loop that adds up the statistic; `Y` is the standardised sorted sample.
Models libkcommon/AndersonDarling.hpp:65-70. -/
noncomputable def adSum (phi : ℝ → ℝ) (Y : List ℝ) : ℝ :=
  (List.range Y.length).foldl (fun A i =>
    A + -1 / (Y.length : ℝ) * ((2 * (i + 1) - 1 : Nat) : ℝ) *
      (Real.log (phi (Y.getD i 0)) + Real.log (1 - phi (Y.getD (Y.length - 1 - i) 0)))) (-(Y.length : ℝ))

/-- `compute_statistic`.  Models libkcommon/AndersonDarling.hpp:44-73. -/
noncomputable def statistic (phi : ℝ → ℝ) (xs : List ℝ) : Option ℝ :=
  let X := xs.mergeSort (fun a b => decide (a ≤ b))
  if X.length ≤ 1 ∨ deviation X = 0 then none
  else some (adSum phi (X.map fun x => (x - average X) / deviation X))

/-- The partition numbers of the rows, each once: the keys of `ad_vecs`.
Models libman/gmeans_coordinator.cpp:79-84. -/
def adKeys (nrow : Nat) (part : Nat → Nat) : List Nat := ((List.range nrow).map part).dedup

/-- `ad_vecs[pid]`.  Models libman/gmeans_coordinator.cpp:79-84. -/
def adVec (nrow : Nat) (part : Nat → Nat) (cd : Nat → ℝ) (p : Nat) : List ℝ :=
  ((List.range nrow).filter fun r => part r = p).map cd

/-- The vectors of all partition numbers are standardised (`linalg::scale`, which may fail), and the
statistics computed.  Models libman/gmeans_coordinator.cpp:86-105, 115-126. -/
noncomputable def adScores (phi : ℝ → ℝ) (nrow : Nat) (part : Nat → Nat) (cd : Nat → ℝ) :
    List Nat → Res (Nat → Option ℝ)
  | [] => .ok fun _ => none
  | p :: ps =>
    match Linalg.scale Real.sqrt (adVec nrow part cd p) with
    | .error e => .error e
    | .ok v =>
      match adScores phi nrow part cd ps with
      | .error e => .error e
      | .ok f => .ok fun q => if q = p then statistic phi v else f q

open Classical in
/-- The partitions whose split g-means takes back, in increasing order; `strict` is an unchecked index into
the critical values.  Models libman/gmeans_coordinator.cpp:108-140. -/
noncomputable def adRejected {R : Type _} {n : Nat} (phi : ℝ → ℝ) (strict nrow : Nat) (cd : Nat → ℝ)
    (s : Hclust.St R n) : Res (List Nat) :=
  match adScores phi nrow s.part cd (adKeys nrow s.part) with
  | .error e => .error e
  | .ok score =>
    match (criticalValues ((adKeys nrow s.part).length : ℝ))[strict]? with
    | none => .error .ub
    | some crit => .ok (s.keys.filter fun p =>
        match score p with
        | none => false
        | some x => decide (x ≤ crit))

/-! ## Runs with these decisions -/

open Xmeans Hclust in
/-- The main loop of Model/Xmeans.lean with the decision computed from the state of the round; the decision
may fail.  Models libman/xmeans_coordinator.cpp:274-322 and libman/gmeans_coordinator.cpp:222-272. -/
def loopD {R D : Type _} {n : Nat} [Zero R] [Add R] [Mul R] [Div R] [NatCast R] [IntCast R] [LE R] [DecidableLE R]
    [LT D] [DecidableLT D] (alg : Alg) (c : Cfg R D n)
    (dec : Nat → St R n → Res (List Nat)) (sched : Nat → Nat → List Nat) :
    Nat → Nat → XSt R n → Res (Option (XSt R n))
  | 0, _, _ => .ok none
  | fuel + 1, t, s =>
    match meanPhase c s with
    | .error e => .error e
    | .ok s1 =>
      match iterate alg c (sched t) s1 with
      | .error e => .error e
      | .ok s2 =>
        match dec t s2.h with
        | .error e => .error e
        | .ok rej =>
          match partitionDecision alg c rej s2 with
          | .error e => .error e
          | .ok s3 =>
            if c.atCap s3.h then .ok (some s3)
            else
              match initSplits c s3.h with
              | .error e => .error e
              | .ok h4 =>
                if h4.keys = [] then
                  if steady h4 then .ok (some { s3 with h := h4 }) else .error .assertFail
                else loopD alg c dec sched fuel (t + 1) { s3 with h := h4 }

open Xmeans Hclust in
/-- `run` with the decision computed from the state.
Models libman/xmeans_coordinator.cpp:251-324 and libman/gmeans_coordinator.cpp:199-273. -/
def runD {R D : Type _} {n : Nat} [Zero R] [Add R] [Mul R] [Div R] [NatCast R] [IntCast R] [LE R] [DecidableLE R]
    [LT D] [DecidableLT D] (alg : Alg) (c : Cfg R D n)
    (it : HInit R n) (dec : Nat → St R n → Res (List Nat)) (sched : Nat → Nat → List Nat) (fuel : Nat) :
    Res (Option (St R n)) :=
  match start c it with
  | .error e => .error e
  | .ok s1 =>
    match loopD alg c dec sched fuel 0 s1 with
    | .error e => .error e
    | .ok none => .ok none
    | .ok (some s2) => .ok (some (completeFinal s2.h))

end Knor.Score
