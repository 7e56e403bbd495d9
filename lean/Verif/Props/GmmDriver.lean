import Verif.Lemmas.Driver
import Verif.Lemmas.Init
import Verif.Lemmas.Gmm
import Verif.Props.Cli
import Verif.Props.Gmm
import Verif.Spec.GmmDriver

/-!
# Property C116: a whole Gaussian mixture call, and the program `gmm`
-/

namespace Knor.Gmm

open Knor Knor.Io Knor.Spec Knor.Driver

variable {R S B : Type _} {k n : Nat}

/-! ### The initialisation -/

private theorem forgy_draws {data : Nat → Row R n} {N nt : Nat} (draw : S → Nat × S) (hnt : 0 < nt)
    (hlt : N < 4294967296) (hd : ∀ s, (draw s).1 < N) (l : List (Fin k)) :
    ∀ (seed : S) (mu : Fin k → Row R n), l.Nodup → ∃ mu', forgy draw data N nt l seed mu = .ok mu' ∧
      (∀ i x, l[i]? = some x → mu' x = data (draw (Init.skip draw i seed)).1) ∧ ∀ c, c ∉ l → mu' c = mu c := by
  induction l with
  | nil => exact fun _ mu _ => ⟨mu, rfl, by simp, by simp⟩
  | cons a l ih =>
    intro seed mu hnd
    obtain ⟨ha, hnd'⟩ := List.nodup_cons.1 hnd
    obtain ⟨mu', e1, h1, h2⟩ := ih (draw seed).2 (Function.update mu a (data (draw seed).1)) hnd'
    refine ⟨mu', ?_, ?_, ?_⟩
    · simp only [forgy]
      rw [Init.thdRow_ok hnt (hd seed) hlt]
      exact e1
    · intro i x hx
      cases i with
      | zero =>
        have : a = x := by simpa using hx
        subst this
        rw [h2 a ha, Function.update_self]
        rfl
      | succ i => exact h1 i x (by simpa using hx)
    · intro c hc
      obtain ⟨h3, h4⟩ := not_or.1 (fun h => hc (List.mem_cons.2 h))
      rw [h2 c h4, Function.update_of_ne h3]

private theorem forgy_congr {data data' : Nat → Row R n} {N nt : Nat} (draw : S → Nat × S) (hnt : 0 < nt)
    (hlt : N < 4294967296) (hd : ∀ s, (draw s).1 < N) (hdata : ∀ r, r < N → data r = data' r) (l : List (Fin k)) :
    ∀ (seed : S) (mu : Fin k → Row R n), forgy draw data N nt l seed mu = forgy draw data' N nt l seed mu := by
  induction l with
  | nil => exact fun _ _ => rfl
  | cons a l ih =>
    intro seed mu
    simp only [forgy]
    rw [Init.thdRow_ok hnt (hd seed) hlt, Init.thdRow_ok hnt (hd seed) hlt, hdata _ (hd seed)]
    exact ih _ _

private theorem runInit_congr (o : Ops R) {rng : Rng R S} {data data' : Nat → Row R n} {N nt : Nat} (hnt : 0 < nt)
    (hlt : N < 4294967296) (hd : ∀ s, (rng.row s).1 < N) (hdata : ∀ r, r < N → data r = data' r) (it : InitT)
    (given : Option (Fin k → Row R n)) :
    runInit o rng data N nt it given = runInit o rng data' N nt it given := by
  unfold runInit
  simp only [forgy_congr rng.row hnt hlt hd hdata]

private theorem runInit_start (o : Ops R) {rng : Rng R S} {data : Nat → Row R n} {N nt : Nat} (hnt : 0 < nt)
    (hlt : N < 4294967296) (hd : ∀ s, (rng.row s).1 < N) (it : InitT) (given : Option (Fin k → Row R n))
    (hit : given.isSome = true ∨ it ≠ .plusplus) :
    ∃ s, runInit o rng data N nt it given = .ok s ∧ GmmStart o.zero it data N rng given s := by
  cases given with
  | some g =>
    refine ⟨_, rfl, ?_⟩
    exact ⟨fun g' e => (by cases e; rfl), fun e => (by cases e), fun e => (by cases e),
      fun _ => ⟨fun _ _ _ => rfl, fun _ => rfl, fun _ _ => rfl⟩⟩
  | none =>
    obtain ⟨mu, e1, e2, -⟩ := forgy_draws (data := data) (k := k) rng.row hnt hlt hd (List.finRange k) rng.seed
      (construct o none : St R k n).mu (List.nodup_finRange k)
    have hdr : ∀ c : Fin k, ∃ r, r < N ∧ (Init.outputs rng.row k rng.seed)[c.val]? = some r ∧ mu c = data r := by
      intro c
      refine ⟨_, hd (Init.skip rng.row c.val rng.seed), Init.outputs_get rng.row k rng.seed c.val c.isLt, ?_⟩
      exact e2 c.val c (by simp)
    cases it with
    | random =>
      refine ⟨_, by simp only [runInit, Option.isSome_none, Bool.false_eq_true, if_false]; rw [e1], ?_⟩
      exact ⟨fun g' e => (by cases e), fun _ _ => hdr, fun _ e => (by cases e), fun e => (by
        rcases e with e | e
        · cases e
        · exact absurd rfl e)⟩
    | forgy =>
      refine ⟨_, by simp only [runInit, Option.isSome_none, Bool.false_eq_true, if_false]; rw [e1], ?_⟩
      exact ⟨fun g' e => (by cases e), fun _ _ => hdr, fun _ e => (by cases e),
        fun _ => ⟨fun _ _ _ => rfl, fun _ => rfl, fun _ _ => rfl⟩⟩
    | plusplus =>
      rcases hit with h | h
      · cases h
      · exact absurd rfl h
    | none =>
      refine ⟨_, rfl, ?_⟩
      exact ⟨fun g' e => (by cases e), fun _ e => (by rcases e with e | e <;> cases e), fun _ _ _ _ => rfl,
        fun _ => ⟨fun _ _ _ => rfl, fun _ => rfl, fun _ _ => rfl⟩⟩

private theorem givenMeans_ok [Zero R] (given : Option (Nat → Nat → R)) :
    givenMeans (k := k) (n := n) (given.map fun g => rowsFrom g n 0 k) = .ok (givenCents given) := by
  cases given with
  | none => rfl
  | some g =>
    have hlen := length_rowsFrom g n 0 k
    simp only [Option.map_some, givenMeans, givenCents]
    rw [if_neg (by omega)]
    congr 2
    funext c j
    exact getD_rowsFrom g c.isLt j

/-! ### The call -/

section Call

variable [Zero R] [Div R] [NatCast R] [LE R] [DecidableLE R] {c : Codec R B} {o : Ops R}
  {shared : St R k n → (Fin k → Nat → Nat → R) × (Fin k → R)} {rng : Rng R S} {sched : Nat → List Nat}

/-- The call on rows that the workers hold. -/
private theorem call_eq (bind : Bool) (hc : CodecOk c) (a : Call R B) (m : Nat → Nat → R)
    (given : Option (Nat → Nat → R)) (it : InitT) (met : Dist.Metric) (hk : 0 < k) (hcol : 0 < n) (hn : 0 < a.nrow)
    (hnt : 0 < a.nthreads) (hlt : a.nrow < 4294967296) (hsz : a.nrow * n * c.size < 9223372036854775808)
    (hst : Holds c a.source m a.nrow n) (hg : a.centers = given.map fun g => rowsFrom g n 0 k)
    (hi : getInit a.init = .ok it) (hd : getDist a.dist = .ok met) :
    ∃ data : Nat → Row R n, (∀ r, r < a.nrow → data r = matRows m r) ∧
      gmmCall (k := k) bind o shared rng c sched a =
        if bind then (softRun o shared rng data a.nrow a.nthreads a.maxIters
          (fun changed => decide ((changed : R) / (a.nrow : R) ≤ a.tol)) sched a.init (givenCents given)).map .returned
        else match runInit o rng data a.nrow a.nthreads it (givenCents given) with
          | .error e => .error e
          | .ok s => .ok (.exits 143 s) := by
  obtain ⟨ws, e1, h1⟩ := load_ok hc m a hn hnt hcol hlt hsz hst
  refine ⟨rowsIn ws a.nrow a.nthreads, h1, ?_⟩
  unfold gmmCall
  rw [hi, hd]
  dsimp only
  rw [if_neg (by omega), hg, givenMeans_ok]
  dsimp only
  rw [e1]
  rfl

/-- **C116, the call.**  Unknown names throw, no component fails an assertion. -/
theorem C116_refuses (bind : Bool) (a : Call R B) :
    ((∀ it, getInit a.init ≠ .ok it) → gmmCall (k := k) (n := n) bind o shared rng c sched a = .error .throws) ∧
    (∀ it, getInit a.init = .ok it → (∀ met, getDist a.dist ≠ .ok met) →
      gmmCall (k := k) (n := n) bind o shared rng c sched a = .error .throws) ∧
    (∀ it met, getInit a.init = .ok it → getDist a.dist = .ok met → k = 0 →
      gmmCall (k := k) (n := n) bind o shared rng c sched a = .error .assertFail) := by
  have hi : ∀ e, getInit a.init = .error e → e = .throws := by
    intro e h
    unfold getInit at h
    split_ifs at h
    injection h with h
    exact h.symm
  have hd : ∀ e, getDist a.dist = .error e → e = .throws := by
    intro e h
    unfold getDist at h
    split_ifs at h
    injection h with h
    exact h.symm
  refine ⟨fun h => ?_, fun it h1 h => ?_, fun it met h1 h2 h => ?_⟩
  · unfold gmmCall
    cases q : getInit a.init with
    | ok it => exact absurd q (h it)
    | error e => rw [hi e q]
  · unfold gmmCall
    rw [h1]
    cases q : getDist a.dist with
    | ok met => exact absurd q (h met)
    | error e => rw [hd e q]
  · unfold gmmCall
    rw [h1, h2]
    dsimp only
    rw [if_pos (by omega)]

/-- **C116 is violated: nothing is fitted.**  Outside of the R and Python packages, every call that is not refused, with
given means or any initialisation but `kmeanspp`, ends the process: with exit status 143, in the state in which a fit
would begin.  The number of iterations, the tolerance and the schedule play no role. -/
theorem C116_violated (hc : CodecOk c) (a : Call R B) (m : Nat → Nat → R)
    (given : Option (Nat → Nat → R)) (it : InitT) (met : Dist.Metric) (hk : 0 < k) (hcol : 0 < n) (hn : 0 < a.nrow)
    (hnt : 0 < a.nthreads) (hlt : a.nrow < 4294967296) (hsz : a.nrow * n * c.size < 9223372036854775808)
    (hst : Holds c a.source m a.nrow n) (hg : a.centers = given.map fun g => rowsFrom g n 0 k)
    (hi : getInit a.init = .ok it) (hd : getDist a.dist = .ok met) (hrow : ∀ s, (rng.row s).1 < a.nrow)
    (hit : given.isSome = true ∨ it ≠ .plusplus) :
    ∃ s, gmmCall (k := k) false o shared rng c sched a = .ok (.exits 143 s) ∧
      GmmStart o.zero it (matRows m) a.nrow rng (givenCents given) s := by
  obtain ⟨data, h1, h2⟩ := call_eq (o := o) (shared := shared) (rng := rng) (sched := sched) false hc a m given it met hk
    hcol hn hnt hlt hsz hst hg hi hd
  have hit' : (givenCents given : Option (Fin k → Fin n → R)).isSome = true ∨ it ≠ .plusplus := by
    rcases hit with h | h
    · exact .inl (by rw [givenCents, Option.isSome_map]; exact h)
    · exact .inr h
  obtain ⟨s, h3, h4⟩ := runInit_start o (data := matRows m) hnt hlt hrow it (givenCents given) hit'
  refine ⟨s, ?_, h4⟩
  rw [h2, if_neg (by decide), runInit_congr o hnt hlt hrow h1, h3]

/-- **C116 is violated: k-means++.**  Without given means the documented initialisation `kmeanspp` is refused by the
workers, in both builds. -/
theorem C116_violated_kmeanspp (bind : Bool) (hc : CodecOk c) (a : Call R B) (m : Nat → Nat → R)
    (met : Dist.Metric) (hk : 0 < k) (hcol : 0 < n) (hn : 0 < a.nrow)
    (hnt : 0 < a.nthreads) (hlt : a.nrow < 4294967296) (hsz : a.nrow * n * c.size < 9223372036854775808)
    (hst : Holds c a.source m a.nrow n) (hg : a.centers = none)
    (hi : a.init = "kmeanspp") (hd : getDist a.dist = .ok met) :
    gmmCall (k := k) (n := n) bind o shared rng c sched a = .error .throws := by
  have hi' : getInit a.init = .ok .plusplus := by rw [hi]; rfl
  obtain ⟨data, h1, h2⟩ := call_eq (k := k) (o := o) (shared := shared) (rng := rng) (sched := sched) bind hc a m none .plusplus
    met hk hcol hn hnt hlt hsz hst (by rw [hg]; rfl) hi' hd
  rw [h2]
  cases bind with
  | false => rfl
  | true =>
    rw [if_pos rfl, softRun, hi']
    dsimp only
    rw [if_neg (by omega)]
    rfl

/-- **C116, in the R and Python packages.**  The call is the fit of C83 on the rows of the matrix, with the given means,
the initialisation, and the number of iterations that were asked for. -/
theorem C116_library_partial (hc : CodecOk c) (a : Call R B) (m : Nat → Nat → R)
    (given : Option (Nat → Nat → R)) (it : InitT) (met : Dist.Metric) (hk : 0 < k) (hcol : 0 < n) (hn : 0 < a.nrow)
    (hnt : 0 < a.nthreads) (hlt : a.nrow < 4294967296) (hsz : a.nrow * n * c.size < 9223372036854775808)
    (hst : Holds c a.source m a.nrow n) (hg : a.centers = given.map fun g => rowsFrom g n 0 k)
    (hi : getInit a.init = .ok it) (hd : getDist a.dist = .ok met) :
    ∃ data : Nat → Row R n, (∀ r, r < a.nrow → data r = matRows m r) ∧
      gmmCall (k := k) true o shared rng c sched a =
        (softRun o shared rng data a.nrow a.nthreads a.maxIters
          (fun changed => decide ((changed : R) / (a.nrow : R) ≤ a.tol)) sched a.init (givenCents given)).map
            .returned := by
  obtain ⟨data, h1, h2⟩ := call_eq (o := o) (shared := shared) (rng := rng) (sched := sched) true hc a m given it met hk
    hcol hn hnt hlt hsz hst hg hi hd
  exact ⟨data, h1, by rw [h2, if_pos rfl]⟩

/-! ### The program -/

/-- **C116, the program refuses** `none` without a file of centres, and a data file whose size is not the one that the
numbers of rows and columns imply. -/
theorem C116_prog_refuses (bind : Bool) (datafn : List B) (centersfn : Option (List B)) (nrow maxIters nthreads : Nat)
    (init : String) (tol : R) (distType : String) (hsz : nrow * n * c.size < 18446744073709551616) (hcol : 0 < n) :
    (centersfn = none → init = "none" →
      gmmProg (k := k) (n := n) bind o shared rng c sched datafn centersfn nrow maxIters nthreads init tol distType =
        .error .assertFail) ∧
    (¬ (centersfn = none ∧ init = "none") → datafn.length ≠ nrow * n * c.size →
      gmmProg (k := k) (n := n) bind o shared rng c sched datafn centersfn nrow maxIters nthreads init tol distType =
        .error .throws) := by
  have hu : u64 (u64 (c.size * nrow) * n) = nrow * n * c.size := by
    have h0 : c.size * nrow * n = nrow * n * c.size := by ring
    rw [u64_mul (by omega), h0]
  refine ⟨?_, ?_⟩
  · rintro rfl rfl
    unfold gmmProg
    simp
  · intro h hne
    unfold gmmProg
    dsimp only
    rw [if_neg, if_pos (by rw [hu]; exact hne)]
    rintro ⟨h2, h3⟩
    have h4 : centersfn = none := by simpa using h3
    subst h4
    exact h ⟨rfl, by simpa using h2⟩

/-- **C116 is violated: the program.**  For a file that stores the matrix, and either a file that stores `k` means or the
initialisation `random` or `forgy`, the program exits with status 143 before anything is fitted. -/
theorem C116_violated_prog (hc : CodecOk c) (datafn : List B) (centersfn : Option (List B))
    (nrow maxIters nthreads : Nat) (init : String) (tol : R) (distType : String) (m : Nat → Nat → R)
    (given : Option (Nat → Nat → R)) (it : InitT) (met : Dist.Metric) (hk : 0 < k) (hcol : 0 < n) (hn : 0 < nrow)
    (hnt : 0 < nthreads) (hlt : nrow < 4294967296) (hsz : nrow * n * c.size < 9223372036854775808)
    (hszk : k * n * c.size < 18446744073709551616) (hst : Stores c datafn m nrow n)
    (hcf : centersfn = given.map (fun g => (rowsFrom g n 0 k).flatMap c.enc))
    (hs : given.isSome → it = .none) (hnone : given = none → getInit init = .ok it ∧ it ≠ .none ∧ it ≠ .plusplus)
    (hd : getDist distType = .ok met) (hrow : ∀ s, (rng.row s).1 < nrow) :
    ∃ s, gmmProg (k := k) (n := n) false o shared rng c sched datafn centersfn nrow maxIters nthreads init tol distType =
        .ok (.exits 143 s) ∧
      GmmStart o.zero it (matRows m) nrow rng (givenCents given) s := by
  have hu : u64 (u64 (c.size * nrow) * n) = nrow * n * c.size := by
    have h0 : c.size * nrow * n = nrow * n * c.size := by ring
    rw [u64_mul (by omega), h0]
  have hlen : datafn.length = nrow * n * c.size := by
    unfold Stores at hst
    rw [hst, length_enc hc, length_rowsFrom]
  unfold gmmProg
  dsimp only
  cases given with
  | none =>
    rw [Option.map_none] at hcf
    subst hcf
    obtain ⟨hi, hit, hpp⟩ := hnone rfl
    have hne : init ≠ "none" := by
      rintro rfl
      have : getInit "none" = .ok .none := rfl
      rw [this] at hi
      injection hi with hi
      exact hit hi.symm
    simp only [Option.isSome_none, Bool.false_eq_true, if_false]
    rw [if_neg (fun h => hne h.1), if_neg (by rw [hu]; exact fun h => h hlen)]
    exact C116_violated hc ⟨.file datafn, nrow, maxIters, nthreads, none, init, tol, distType⟩ m none it met hk hcol hn hnt
      hlt hsz hst rfl hi hd hrow (.inr hpp)
  | some g =>
    rw [Option.map_some] at hcf
    subst hcf
    cases hs rfl
    simp only [Option.isSome_some, if_true, Option.isNone_some, Bool.false_eq_true, and_false, if_false]
    rw [if_neg (by rw [hu]; exact fun h => h hlen)]
    obtain ⟨y, e⟩ := read_stored (n := n) hc g k (Nat.mul_pos hk hcol) hszk (bytes := (rowsFrom g n 0 k).flatMap c.enc) rfl
    rw [e]
    exact C116_violated hc ⟨.file datafn, nrow, maxIters, nthreads, some (rowsFrom g n 0 k), "none", tol, distType⟩ m
      (some g) .none met hk hcol hn hnt hlt hsz hst rfl rfl hd hrow (.inl rfl)

end Call

end Knor.Gmm

namespace Knor.Cli

open Knor Knor.Io Knor.Spec Knor.Spec.Cli

section Main

variable {R S B : Type _} [Zero R] [Neg R] [One R] [Div R] [NatCast R] [LE R] [DecidableLE R]

/-- **C116, the command line.**  For a proper command line, `gmm` does what `gmmProg` does with the parameters that it
names; what is not named is `random`, `eucl`, `UINT_MAX` iterations, the tolerance -1 and the number of threads of the
machine.  Nothing is written, whatever is named after `-o`. -/
theorem C116_gmm (bind : Bool) (o : Gmm.Ops R) (shared : (k n : Nat) → Gmm.St R k n → (Fin k → Nat → Nat → R) × (Fin k → R))
    (micro : R) (rng : Gmm.Rng R S) (c : Codec R B) (sched : Nat → List Nat) (env : Env R B) (items : List Item)
    (rest : List Str) (a : GmmArgs R B) (ha : AsksGmm env micro items rest a) :
    gmmMain bind o shared micro rng c sched env (render items rest) =
      finish (Gmm.Ending R) [] a.k a.ncol
        (Gmm.gmmProg bind o (shared a.k a.ncol) rng c sched a.data a.centers a.nrow a.iters a.threads a.init a.tol
          a.dist) := by
  have hP : gmmP ∈ programs := by simp [programs]
  unfold gmmMain
  rw [mainWith_of hP env (-1) "eucl" items rest a.toArgs ha.args rfl rfl rfl rfl (Gmm.Ending R) _
    (fun k _ => Gmm.gmmProg bind o (shared k a.ncol) rng c sched a.data a.centers a.nrow a.iters a.threads a.init a.tol
      a.dist) ?_]
  · cases Gmm.gmmProg bind o (shared a.k a.ncol) rng c sched a.data a.centers a.nrow a.iters a.threads a.init a.tol
      a.dist <;> rfl
  · intro st hk h1 e2 e3 e4
    have e5 : st.text 't' = a.init := text_of hP h1 (by decide) rfl ha.init
    have e6 : (if st.count 'c' ≠ 0 then env.stod (st.str 'c') else .ok micro) = .ok a.covReg := by
      rcases ha.covReg with ⟨w, h3, h4⟩ | ⟨h3, h4⟩
      · obtain ⟨o', ho, hx, _⟩ := id h3
        rw [if_pos (says_val (C99_tables _ hP) h1 ho hx h3).2,
          says_str (C99_tables _ hP) h1 (by decide +kernel) h3, h4]
      · rw [if_neg (by rw [(h1.keeps 'c' h3).2]; simp), h4]
    dsimp only
    rw [e6, e2, e3, e4, e5]

/-- **C116 is violated: from the command line.**  Whatever a proper command line asks for (other than `kmeanspp` or
`none` without a file of means): the program exits with status 143, and nothing is written. -/
theorem C116_violated_gmm (o : Gmm.Ops R)
    (shared : (k n : Nat) → Gmm.St R k n → (Fin k → Nat → Nat → R) × (Fin k → R))
    (micro : R) (rng : Gmm.Rng R S) {c : Codec R B} (hc : CodecOk c) (sched : Nat → List Nat) (env : Env R B)
    (items : List Item) (rest : List Str) (a : GmmArgs R B) (ha : AsksGmm env micro items rest a) (hcol : 0 < a.ncol)
    (hn : 0 < a.nrow) (hnt : 0 < a.threads) (hlt : a.nrow < 4294967296)
    (hsz : a.nrow * a.ncol * c.size < 9223372036854775808) (hszk : a.k * a.ncol * c.size < 18446744073709551616)
    (m : Nat → Nat → R) (given : Option (Nat → Nat → R)) (it : Driver.InitT) (met : Dist.Metric)
    (hst : Stores c a.data m a.nrow a.ncol)
    (hcf : a.centers = given.map (fun g => (rowsFrom g a.ncol 0 a.k).flatMap c.enc))
    (hs : given.isSome → it = .none)
    (hnone : given = none → Driver.getInit a.init = .ok it ∧ it ≠ .none ∧ it ≠ .plusplus)
    (hd : Driver.getDist a.dist = .ok met) (hrow : ∀ s, (rng.row s).1 < a.nrow) :
    ∃ s : Gmm.St R a.k a.ncol,
      gmmMain false o shared micro rng c sched env (render items rest) = .done ⟨[], a.k, a.ncol, .exits 143 s⟩ ∧
      GmmStart o.zero it (matRows m) a.nrow rng (givenCents given) s := by
  obtain ⟨s, h1, h2⟩ := Gmm.C116_violated_prog (o := o) (shared := shared a.k a.ncol) (rng := rng) (sched := sched) hc a.data
    a.centers a.nrow a.iters a.threads a.init a.tol a.dist m given it met ha.args.k_pos hcol hn hnt hlt hsz hszk hst hcf hs
    hnone hd hrow
  refine ⟨s, ?_, h2⟩
  rw [C116_gmm false o shared micro rng c sched env items rest a ha, h1]
  rfl

end Main

/-! ### The hypotheses are met -/

/-- What `gmm data.bin 4 1 2` asks for. -/
def plainGmm (B : Type) (b : List B) : GmmArgs ℝ B :=
  { plainArgs B b (-1) "eucl" with init := "random", covReg := 0.000001 }

theorem plain_asksGmm (B : Type) (b : List B) :
    AsksGmm (plainEnv B b) (0.000001 : ℝ) plainItems [] (plainGmm B b) :=
  have hP : gmmP ∈ programs := by simp [programs]
  ⟨plain_asks hP B b (-1) "eucl", .inr ⟨plain_silent hP (by decide), rfl⟩, .inr ⟨plain_silent hP (by decide), rfl⟩⟩

/-- `gmm data.bin 4 1 2` on a file that stores 0, 1, 2, 3, with an engine that counts modulo 4: the process exits with
status 143; the second mean that is printed is the row 1. -/
example : ∃ s : Gmm.St ℝ 2 1,
    gmmMain false Gmm.realOps (fun _ _ s => (s.inv, s.dets)) 0.000001
      (⟨0, fun s => (s % 4, s + 1), fun s => (1 / 2, s)⟩ : Gmm.Rng ℝ Nat) (Driver.oneCell ℝ) (fun _ => [])
      (plainEnv ℝ [0, 1, 2, 3]) [nm "data.bin", nm "4", nm "1", nm "2"] = .done ⟨[], 2, 1, .exits 143 s⟩ ∧
    s.mu 1 0 = 1 := by
  obtain ⟨s, h1, h2⟩ := C116_violated_gmm Gmm.realOps (fun _ _ s => (s.inv, s.dets)) 0.000001
    (⟨0, fun s => (s % 4, s + 1), fun s => (1 / 2, s)⟩ : Gmm.Rng ℝ Nat) (Driver.oneCell_ok ℝ) (fun _ => [])
    (plainEnv ℝ [0, 1, 2, 3]) plainItems [] _ (plain_asksGmm ℝ [0, 1, 2, 3])
    (by change 0 < 1; decide) (by change 0 < 4; decide) (by change 0 < 4; decide)
    (by change 4 < 4294967296; decide) (by change 4 * 1 * 1 < _; decide) (by change 2 * 1 * 1 < _; decide)
    (fun r _ => (r : ℝ)) none .random .eucl
    (by
      change [(0 : ℝ), 1, 2, 3] = _
      simp [rowsFrom, rowOf, List.range', plainGmm, plainArgs, Driver.oneCell, List.range_succ])
    rfl (fun h => by cases h) (fun _ => ⟨rfl, by decide, by decide⟩) rfl (fun s => Nat.mod_lt _ (by decide))
  refine ⟨s, h1, ?_⟩
  obtain ⟨r, -, h4, h5⟩ := h2.drawn rfl (.inr rfl) (1 : Fin 2)
  have h6 : r = 1 := by
    have : (some 1 : Option Nat) = some r := h4
    injection this with this
    exact this.symm
  rw [h5, h6]
  exact Nat.cast_one

end Knor.Cli
