import Verif.Model.ScaledDriver
import Verif.Props.Driver
import Verif.Props.Skmeans

/-! # Lemmas about the programs and about scaled k-means calls -/

namespace Knor.Driver

open Knor Knor.Spec Knor.Io Knor.Partition Knor.Par Knor.Kmeans Knor.Init

variable {R S B α : Type _} {k n : Nat}

/-- Construction, initialisation and loop on the rows `data'`. -/
theorem cluster_ok [Field R] [LinearOrder R] [IsStrictOrderedRing R] (dist : Row R n → Row R n → R) (big : R)
    (rng : Rng R S k) (data data' : Nat → Row R n) (N nt : Nat) (hdata : ∀ r, r < N → data r = data' r)
    (hk : 0 < k) (hn : 0 < N) (hnt : 0 < nt) (hlt : N < 4294967296) (hrng : RngOk rng N)
    (sched1 sched2 : Nat → List Nat) (hc1 : ∀ i, Complete (effThreads nt N) (threadRows N nt) (sched1 i))
    (hc2 : ∀ i, Complete (effThreads nt N) (threadRows N nt) (sched2 i))
    (it : InitT) (hpp : it = .plusplus → Seedable dist big data' N) (given : Option (Nat → Nat → R))
    (tol : R) (maxIters : Nat)
    (hb : ∀ c0 tr, StartsAt it dist data' N rng (givenCents given) c0 → LloydTrace dist N data' c0 tr →
      ∀ i r, r < N → ∃ c, dist (data' r) ((tr i).cents c) < big) :
    ∃ cl s res, construct it (given.map fun g => rowsFrom g n 0 k) = .ok cl ∧
      runInit dist big rng data N nt sched1 it cl = .ok s ∧
      Kmeans.run dist big data N nt tol maxIters sched2 s = .ok res ∧
      Delivers it dist data' N rng (givenCents given) tol maxIters res := by
  obtain ⟨cl, s, e0, es, hstart⟩ := runInit_ok dist big rng data data' N nt hdata hk hn hnt hlt hrng sched1 hc1 it hpp
    given
  obtain ⟨tr, htr⟩ := trace_exists dist N data' s.cltrs.means hk
  have hb' : ∀ tr, LloydTrace dist N data' s.cltrs.means tr →
      ∀ i r, r < N → ∃ c, dist (data r) ((tr i).cents c) < big := by
    intro tr htr i r hr
    rw [hdata r hr]
    exact hb _ tr hstart htr i r hr
  have hrows' : ∀ r, r < N → data' r = data r := fun r hr => (hdata r hr).symm
  obtain ⟨res, er, hz, _⟩ := C10_C11_run_is_lloyd dist big data N nt tol maxIters s hn hlt hnt sched2 hc2 tr
    (trace_data hrows' htr) (hb' tr htr)
  refine ⟨cl, s, res, e0, es, er, s.cltrs.means, hstart, fun h => by rw [hz h]; exact ⟨rfl, rfl⟩, ?_⟩
  intro hpos tr' htr'
  obtain ⟨res', er', _, h2⟩ := C10_C11_run_is_lloyd dist big data N nt tol maxIters s hn hlt hnt sched2 hc2 tr'
    (trace_data hrows' htr') (hb' tr' htr')
  rw [er] at er'
  obtain rfl := Except.ok.inj er'
  exact h2 hpos

/-- What a program does. -/
theorem program_ok [Zero R] {c : Codec R B} (hc : CodecOk c) (datafn : List B) (centersfn : Option (List B))
    (nrow rows : Nat) (init : String) (call : String → Option (List R) → Res α) (hcol : 0 < n) (hrows : 0 < rows)
    (hsz : nrow * n * c.size < 9223372036854775808) (hszk : rows * n * c.size < 18446744073709551616) :
    (centersfn = none → init = "none" →
      program c datafn centersfn nrow n rows init call = .error .assertFail) ∧
    (¬ (centersfn = none ∧ init = "none") → datafn.length ≠ nrow * n * c.size →
      program c datafn centersfn nrow n rows init call = .error .throws) ∧
    ∀ (given : Option (Nat → Nat → R)), datafn.length = nrow * n * c.size →
      centersfn = given.map (fun g => (rowsFrom g n 0 rows).flatMap c.enc) →
      (given = none → init ≠ "none" → program c datafn centersfn nrow n rows init call = call init none) ∧
      (∀ g, given = some g → program c datafn centersfn nrow n rows init call =
        call "none" (some (rowsFrom g n 0 rows))) := by
  have hu : u64 (u64 (c.size * nrow) * n) = nrow * n * c.size := by
    have h0 : c.size * nrow * n = nrow * n * c.size := by ring
    rw [u64_mul (by omega), h0]
  refine ⟨?_, ?_, ?_⟩
  · rintro rfl rfl
    unfold program
    simp
  · intro h hne
    unfold program
    dsimp only
    rw [if_neg, if_pos (by rw [hu]; exact hne)]
    rintro ⟨h2, h3⟩
    have h4 : centersfn = none := by simpa using h3
    subst h4
    exact h ⟨rfl, by simpa using h2⟩
  · intro given hlen hcf
    constructor
    · rintro rfl hne
      rw [Option.map_none] at hcf
      subst hcf
      unfold program
      dsimp only
      rw [if_neg (by simp [hne]), if_neg (by rw [hu]; simp [hlen])]
      simp
    · rintro g rfl
      rw [Option.map_some] at hcf
      subst hcf
      unfold program
      dsimp only
      rw [if_neg (by simp), if_neg (by rw [hu]; simp [hlen])]
      obtain ⟨y, ey⟩ := read_stored (n := n) hc g rows (Nat.mul_pos hrows hcol) hszk rfl
      rw [ey]
      simp

/-- The rows after scaling. -/
theorem scaled_ok [Field R] [LinearOrder R] [IsStrictOrderedRing R] (big tiny : R)
    (data data' scaled : Nat → Row R n) (N nt : Nat) (s1 s2 : List Nat) (hdata : ∀ r, r < N → data r = data' r)
    (hn : 0 < N) (hnt : 0 < nt) (hlt : N < 4294967296)
    (hc1 : Complete (effThreads nt N) (threadRows N nt) s1) (hc2 : Complete (effThreads nt N) (threadRows N nt) s2)
    (hbig : ∀ r j, r < N → data' r j ≤ big) (htiny : ∀ j, ∃ r, r < N ∧ tiny ≤ data' r j)
    (hs : MinMaxScaled N data' scaled) :
    ∃ rows, Skmeans.preprocess big tiny data N nt s1 s2 = .ok rows ∧
      ((List.range N).all (fun r => (List.finRange n).all fun j => decide (rows r j ≠ .nan)) = true) ∧
      ∀ r, r < N → (fun j => (rows r j).val) = scaled r := by
  obtain ⟨rows, g, h1, -⟩ := Skmeans.preprocess_closed (big := big) (tiny := tiny) (data := data)
    hn hnt hlt hc1 hc2
  have h2 : ∀ r j, r < N → rows r j = .fin (scaled r j) := by
    intro r j hr
    obtain ⟨lo, hi, hlo, hhi, hlh, hsc⟩ := hs j
    obtain ⟨q, hq, hqt⟩ := htiny j
    have hcmin : IsColMin N data j lo :=
      ⟨fun r hr => by rw [hdata r hr]; exact hlo.1 r hr, by
        obtain ⟨r0, hr0, e⟩ := hlo.2
        exact ⟨r0, hr0, by rw [hdata r0 hr0]; exact e⟩⟩
    have hcmax : IsColMax N data j hi :=
      ⟨fun r hr => by rw [hdata r hr]; exact hhi.1 r hr, by
        obtain ⟨r0, hr0, e⟩ := hhi.2
        exact ⟨r0, hr0, by rw [hdata r0 hr0]; exact e⟩⟩
    obtain ⟨rows', h1', h2'⟩ := Skmeans.C38_minmax_partial big tiny data N nt s1 s2 hn hnt hlt hc1 hc2 j
      (fun r hr => by rw [hdata r hr]; exact hbig r j hr) lo hi hcmin hcmax hlh (hqt.trans (hhi.1 q hq))
    rw [h1] at h1'
    obtain rfl := Except.ok.inj h1'
    rw [hsc r hr, ← hdata r hr]
    exact (h2' r hr).1
  refine ⟨rows, h1, ?_, fun r hr => funext fun j => by rw [h2 r j hr]; rfl⟩
  simp only [List.all_eq_true, List.mem_range, List.mem_finRange, decide_eq_true_eq, forall_true_left]
  intro r hr j
  rw [h2 r j hr]
  simp

end Knor.Driver
