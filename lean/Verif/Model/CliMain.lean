import Verif.Model.Cli
import Verif.Model.Driver
import Verif.Model.PrunedDriver
import Verif.Model.OmpDriver
import Verif.Model.MiniBatchDriver
import Verif.Model.ScaledDriver
import Verif.Model.FuzzyDriver
import Verif.Model.HierDriver
import Verif.Model.MedoidDriver
import Verif.Model.SeedDriver

/-!
# The `main` functions of exec/

* the options of every program that uses cxxopts, and the values of its variables before parsing;
* what is done with the command line before the library is called (`prologue`);
* the programs as a whole.
-/

namespace Knor.Cli

open Knor Knor.Io

variable {R S B α : Type _}

/-- A name: the string literals of exec/knori.cpp:68-99 and its like. -/
def nm (s : String) : Str := s.toList

/-- What a program finds around it: the files that exist, the number of threads that OpenMP offers, the number of NUMA
nodes, and `std::stod` (which throws an exception that is not an `OptionException`).  Models exec/knori.cpp:49, 60 and
114-121. -/
structure Env (R B : Type _) where
  files : Str → Option (List B)
  threads : Nat
  nodes : Nat
  stod : Str → Res R

/-- A program: its options, its positional parameters, the number of words it asks for, and its variables before
parsing.  `init` of a letter that is no option is the variable of that name if there is one.
Models exec/knori.cpp:45-112. -/
structure Prog where
  opts : List Opt
  positional : List Str
  minArgs : Nat
  init : Nat → Nat → Char → Val

/-- The options that all programs have.  Models exec/knori.cpp:69-98, exec/kmeanspp.cpp:52-73. -/
def common (kname : String) : List Opt :=
  [⟨'f', nm "datafn", .str⟩, ⟨'n', nm "nsamples", .str⟩, ⟨'m', nm "dim", .str⟩, ⟨'k', nm kname, .u32⟩,
   ⟨'T', nm "num_thread", .u32⟩, ⟨'N', nm "nnodes", .u32⟩, ⟨'d', nm "dist", .str⟩, ⟨'o', nm "outdir", .str⟩,
   ⟨'h', nm "help", .bool⟩]

/-- The options that all programs but `kmeanspp` have.  Models exec/knori.cpp:69-98. -/
def iterative (kname : String) : List Opt :=
  common kname ++ [⟨'i', nm "iters", .u32⟩, ⟨'C', nm "centersfn", .str⟩, ⟨'l', nm "tol", .str⟩]

/-- The variables of all programs before parsing: `max_iters` is `UINT_MAX`, strings are empty.
Models exec/knori.cpp:45-62. -/
def initVals (dist init : String) (threads nodes : Nat) (x : Char) : Val :=
  if x = 'k' then .num 0
  else if x = 'T' then .num threads
  else if x = 'N' then .num nodes
  else if x = 'i' then .num 4294967295
  else if x = 'd' then .str (nm dist)
  else if x = 't' then .str (nm init)
  else if x = 'O' ∨ x = 'P' ∨ x = 'h' then .flag false
  else .str []

/-- `initVals` with the value of one more option.  Models exec/mb_knori.cpp:35-50. -/
def withVal (f : Nat → Nat → Char → Val) (y : Char) (v : Val) (threads nodes : Nat) (x : Char) : Val :=
  if x = y then v else f threads nodes x

/-- The order of the positional parameters.  Models exec/knori.cpp:99. -/
def placeNames (kname : String) : List Str := [nm "datafn", nm "nsamples", nm "dim", nm kname]

/-- `knori`.  Models exec/knori.cpp:45-112. -/
def knoriP : Prog :=
  ⟨iterative "nclust" ++ [⟨'t', nm "init", .str⟩, ⟨'O', nm "omp", .bool⟩, ⟨'P', nm "prune", .bool⟩],
    placeNames "nclust", 5, initVals "eucl" "kmeanspp"⟩

/-- `mb_knori`.  Models exec/mb_knori.cpp:35-100. -/
def mbKnoriP : Prog :=
  ⟨iterative "nclust" ++ [⟨'t', nm "init", .str⟩, ⟨'M', nm "mb_size", .u32⟩],
    placeNames "nclust", 5, withVal (initVals "eucl" "kmeanspp") 'M' (.num 100)⟩

/-- `fcm`.  Models exec/fcm.cpp:32-93. -/
def fcmP : Prog :=
  ⟨iterative "nclust" ++ [⟨'z', nm "fuzzindex", .u32⟩],
    placeNames "nclust", 5, withVal (initVals "sqeucl" "forgy") 'z' (.num 2)⟩

/-- `skmeans`.  Models exec/skmeans.cpp:32-90. -/
def skmeansP : Prog := ⟨iterative "nclust", placeNames "nclust", 5, initVals "cos" "forgy"⟩

/-- `hmeans` and `xmeans`.  Models exec/hmeans.cpp:32-93 and exec/xmeans.cpp:32-93. -/
def hmeansP : Prog :=
  ⟨iterative "kmax" ++ [⟨'s', nm "min_clust_size", .u32⟩],
    placeNames "kmax", 5, withVal (initVals "eucl" "forgy") 's' (.num 2)⟩

/-- `gmeans`.  Models exec/gmeans.cpp:32-96. -/
def gmeansP : Prog :=
  ⟨iterative "kmax" ++ [⟨'s', nm "min_clust_size", .u32⟩, ⟨'S', nm "strictness", .i16⟩],
    placeNames "kmax", 5, withVal (withVal (initVals "eucl" "forgy") 's' (.num 2)) 'S' (.num 4)⟩

/-- `medoids`; it does not ask for a number of words.  Models exec/medoids.cpp:36-90. -/
def medoidsP : Prog :=
  ⟨iterative "nclust" ++ [⟨'s', nm "srate", .str⟩], placeNames "nclust", 0, initVals "taxi" "forgy"⟩

/-- `kmeanspp`.  Models exec/kmeanspp.cpp:40-91. -/
def kmeansppP : Prog :=
  ⟨common "nclust" ++ [⟨'s', nm "num_starts", .u32⟩],
    placeNames "nclust", 4, withVal (initVals "eucl" "kmeanspp") 's' (.num 10)⟩

/-- `gmm`.  Models exec/gmm.cpp:33-94. -/
def gmmP : Prog :=
  ⟨iterative "nclust" ++ [⟨'c', nm "cov_reg", .str⟩, ⟨'t', nm "init", .str⟩],
    placeNames "nclust", 5, initVals "eucl" "random"⟩

/-- How a program ends: it prints its help or says that words are missing (status 0), it refuses an option (status 1),
it fails, or it gets through.  Models exec/knori.cpp:103-115 and 198-203. -/
inductive Outcome (α : Type _) where
  | help
  | usage
  | badOption
  | fault (e : Fault)
  | done (a : α)

/-- The sign at the beginning of a number.  Models `atol` of the C library, as used in exec/knori.cpp:116-117. -/
def atolSign : Str → Bool × Str
  | '-' :: r => (true, r)
  | '+' :: r => (false, r)
  | s => (false, s)

/-- `isspace` of the C locale.  Models `atol` of the C library, as used in exec/knori.cpp:116-117. -/
def isSpace (c : Char) : Bool := c = ' ' || c = '\t' || c = '\n' || c = '\x0b' || c = '\x0c' || c = '\r'

/-- `atol` and the conversion to `size_t`: spaces, a sign, digits; what follows is ignored, and a value that does not
fit a `long` is undefined behaviour.  Models the C library, as used in exec/knori.cpp:116-117. -/
def atol (s : Str) : Res Nat :=
  let p := atolSign (s.dropWhile isSpace)
  let v := (p.2.takeWhile Char.isDigit).foldl (fun a c => a * 10 + (c.toNat - '0'.toNat)) 0
  if p.1 then
    if 9223372036854775808 < v then .error .ub else .ok (u64 (18446744073709551616 - v))
  else if 9223372036854775808 ≤ v then .error .ub
  else .ok v

/-- What `main` knows when it has looked at its options.  Models exec/knori.cpp:45-62 and 120-130. -/
structure Cfg (R B : Type _) where
  datafn : List B
  nrow : Nat
  ncol : Nat
  tol : R
  centers : Option (List B)
  st : St

/-- A string variable.  Models exec/knori.cpp:45-62. -/
def St.str (st : St) (x : Char) : Str := match st.val x with | .str s => s | _ => []
/-- An `unsigned` variable.  Models exec/knori.cpp:45-62. -/
def St.num (st : St) (x : Char) : Nat := match st.val x with | .num n => n.toNat | _ => 0
/-- A `bool` variable.  Models exec/knori.cpp:45-62. -/
def St.flag (st : St) (x : Char) : Bool := match st.val x with | .flag b => b | _ => false

/-- From the command line (without the name of the program) to the variables: parsing, help, the number of words, the
existence of the data file, the numbers of rows and columns, the tolerance and the existence of the file of centres.
Models exec/knori.cpp:99-124, exec/mb_knori.cpp:87-112, exec/fcm.cpp:79-106, exec/skmeans.cpp:77-103,
exec/hmeans.cpp:79-106, exec/xmeans.cpp:79-106, exec/gmeans.cpp:82-109, exec/medoids.cpp:83-104,
exec/kmeanspp.cpp:78-96, exec/gmm.cpp:81-109.  Simplified: the number after `-s` of `medoids` and after `-c` of `gmm` is
converted after this. -/
def prologue (P : Prog) (env : Env R B) (tol0 : R) (argv : List Str) : Outcome (Cfg R B) :=
  match parse P.opts argv P.positional ⟨P.init env.threads env.nodes, fun _ => 0⟩ with
  | none => .badOption
  | some st =>
    if st.count 'h' ≠ 0 ∨ argv.length + 1 = 1 then .help
    else if argv.length + 1 < P.minArgs then .usage
    else match env.files (st.str 'f') with
      | none => .fault .assertFail
      | some data =>
        match atol (st.str 'n') with
        | .error e => .fault e
        | .ok nrow =>
          match atol (st.str 'm') with
          | .error e => .fault e
          | .ok ncol =>
            match (if st.count 'l' ≠ 0 then env.stod (st.str 'l') else .ok tol0) with
            | .error e => .fault e
            | .ok tol =>
              if st.count 'C' ≠ 0 then
                match env.files (st.str 'C') with
                | none => .fault .assertFail
                | some f => .done ⟨data, nrow, ncol, tol, some f, st⟩
              else .done ⟨data, nrow, ncol, tol, none, st⟩

/-- What a program hands over to be written: the directory (empty if nothing is to be written) and the result, whose
type depends on the numbers of clusters and columns.  Models exec/knori.cpp:191-194. -/
structure Output (F : Nat → Nat → Type _) where
  outdir : Str
  k : Nat
  ncol : Nat
  result : F k ncol

/-- The end of a program.  Models exec/knori.cpp:191-203. -/
def finish (F : Nat → Nat → Type _) (outdir : Str) (k n : Nat) : Res (F k n) → Outcome (Output F)
  | .error e => .fault e
  | .ok r => .done ⟨outdir, k, n, r⟩

/-- A program: `call` is what comes between the options and the output.  Simplified: what happens with 0 clusters is not
followed (for most calls it is an out-of-bounds access).  Models exec/knori.cpp:41-203 and its like. -/
def mainWith (P : Prog) (env : Env R B) (tol0 : R) (F : Nat → Nat → Type _)
    (call : (g : Cfg R B) → 0 < g.st.num 'k' → Res (F (g.st.num 'k') g.ncol)) (argv : List Str) : Outcome (Output F) :=
  match prologue P env tol0 argv with
  | .help => .help
  | .usage => .usage
  | .badOption => .badOption
  | .fault e => .fault e
  | .done g =>
    if hk : 0 < g.st.num 'k' then finish F (g.st.str 'o') (g.st.num 'k') g.ncol (call g hk) else .fault .ub

/-- A string variable as a string.  Models exec/knori.cpp:45-62. -/
def St.text (st : St) (x : Char) : String := String.ofList (st.str x)

section Mains

variable [Zero R] [Neg R] [One R] [Add R] [Sub R] [Mul R] [Div R] [IntCast R] [NatCast R] [LT R] [DecidableLT R] [LE R]
  [DecidableLE R]

/-- `knori`.  `rng` and `ompRun` are the generator and the parallel execution for the given size, `sched1` and `sched2`
the interleavings; `-O` is as in a build with OpenMP.  Models exec/knori.cpp:41-203. -/
def knoriMain (dist : (n : Nat) → Dist.Metric → Row R n → Row R n → R) (big : R) (c : Codec R B)
    (rng : (k : Nat) → 0 < k → Driver.Rng R S k) (ompRun : Driver.OmpRun) (sched1 sched2 : Nat → List Nat)
    (env : Env R B) : List Str → Outcome (Output (Omp.Report R)) :=
  mainWith knoriP env (-1) (Omp.Report R) fun g hk =>
    if g.st.flag 'O' then
      Driver.knoriOmp (dist g.ncol) big c (rng _ hk) ompRun (g.st.flag 'P') g.datafn g.centers g.nrow (g.st.num 'i')
        (g.st.num 'T') (g.st.text 't') g.tol (g.st.text 'd')
    else if g.st.flag 'P' then
      (Driver.knori (dist g.ncol) big c (rng _ hk) sched1 sched2 g.datafn g.centers g.nrow (g.st.num 'i')
        (g.st.num 'T') (g.st.text 't') g.tol (g.st.text 'd')).map Omp.report
    else
      (Driver.knoriPruned (dist g.ncol) big c (rng _ hk) sched1 sched2 g.datafn g.centers g.nrow (g.st.num 'i')
        (g.st.num 'T') (g.st.text 't') g.tol (g.st.text 'd')).map Omp.reportP

/-- `mb_knori`.  Models exec/mb_knori.cpp:32-156. -/
def mbKnoriMain (dist : (n : Nat) → Dist.Metric → Row R n → Row R n → R) (big : R) (sqrt : R → R) (c : Codec R B)
    (rng : (k : Nat) → 0 < k → Driver.Rng R S k) (draw : Nat → Nat → R) (sched1 sched2 : Nat → List Nat)
    (schedEnd : List Nat) (env : Env R B) : List Str → Outcome (Output fun k n => Nat × Prune.PState R R k n) :=
  mainWith mbKnoriP env (-1) _ fun g hk =>
    Driver.mbKnori (dist g.ncol) big sqrt c (rng _ hk) draw sched1 sched2 schedEnd g.datafn g.centers g.nrow
      (g.st.num 'i') (g.st.num 'T') (g.st.text 't') g.tol (g.st.text 'd') (g.st.num 'M')

/-- `skmeans`.  Models exec/skmeans.cpp:30-142. -/
def skmeansMain [DecidableEq R] (dist : (n : Nat) → Dist.Metric → Row R n → Row R n → R) (big tiny : R)
    (c : Codec R B) (rng : (k : Nat) → 0 < k → Driver.Rng R S k) (s1 s2 : List Nat) (sched1 sched2 : Nat → List Nat)
    (env : Env R B) : List Str → Outcome (Output (Kmeans.Result R)) :=
  mainWith skmeansP env (-1) _ fun g hk =>
    Driver.skmeansProg (dist g.ncol) big tiny c (rng _ hk) s1 s2 sched1 sched2 g.datafn g.centers g.nrow
      (g.st.num 'i') (g.st.num 'T') g.tol (g.st.text 'd')

/-- `fcm`; `micro` is the literal 1E-6.  Models exec/fcm.cpp:30-142. -/
def fcmMain [Pow R Nat] (root : R → R) (dist : (n : Nat) → Dist.Metric → Row R n → Row R n → Option R)
    (norm : (k n : Nat) → (Fin k → Row R n) → R) (dmin micro : R) (c : Codec R B)
    (rng : (k : Nat) → 0 < k → Driver.Rng R S k) (s1 s2 : Nat → List Nat) (env : Env R B) :
    List Str → Outcome (Output (Fcm.Result R)) :=
  mainWith fcmP env micro _ fun g hk =>
    Driver.fcmProg root (dist g.ncol) (norm _ g.ncol) dmin c (rng _ hk) s1 s2 (g.st.num 'z') g.datafn g.centers g.nrow
      (g.st.num 'i') (g.st.num 'T') g.tol (g.st.text 'd')

/-- `hmeans`, `xmeans` and `gmeans`: `lib` is the library call for the largest number of clusters, the smallest size of
a cluster and the strictness.  Models exec/hmeans.cpp:30-144, exec/xmeans.cpp:30-144 and exec/gmeans.cpp:30-147. -/
def hierMain (P : Prog) (lib : (n kmax minSize : Nat) → Int → Driver.Call R B → Res (Option (Compact.Result R n)))
    (micro : R) (c : Codec R B) (env : Env R B) :
    List Str → Outcome (Output fun _ n => Option (Compact.Result R n)) :=
  mainWith P env micro _ fun g _ =>
    Driver.hierProg c g.datafn g.centers g.nrow g.ncol (g.st.num 'i') (g.st.num 'T') g.tol (g.st.text 'd')
      (lib g.ncol (g.st.num 'k') (g.st.num 's') (match g.st.val 'S' with | .num v => v | _ => 0))

/-- `medoids`; `fifth` is the literal .2.  Simplified: a sampling rate that is no number is reported when the tolerance
and the file of centres have been looked at.  Models exec/medoids.cpp:34-148. -/
def medoidsMain (dist : (n : Nat) → Dist.Metric → Row R n → Row R n → R) (big fifth : R) (c : Codec R B)
    (rng : (k : Nat) → 0 < k → Driver.Rng R S k) (draw : Nat → Nat → R) (s0 : List Nat) (s1 s2 : Nat → List Nat)
    (env : Env R B) : List Str → Outcome (Output (Medoid.Result R R)) :=
  mainWith medoidsP env (-1) _ fun g hk =>
    match (if g.st.count 's' ≠ 0 then env.stod (g.st.str 's') else .ok fifth) with
    | .error e => .error e
    | .ok rate =>
      Driver.medoidsProg (dist g.ncol) big c (rng _ hk) draw s0 s1 s2 rate g.datafn g.centers.isSome g.nrow
        (g.st.num 'i') (g.st.num 'T') g.tol (g.st.text 'd')

/-- `kmeanspp`; it has no tolerance and no file of centres.  Models exec/kmeanspp.cpp:38-123. -/
def kmeansppProgMain (keeps : Bool) (dist : (n : Nat) → Dist.Metric → Row R n → Row R n → R) (big : R) (c : Codec R B)
    (rng : (k : Nat) → 0 < k → Driver.Rng R S k) (sched : Nat → Nat → List Nat) (env : Env R B) :
    List Str → Outcome (Output fun k n => Nat × R × MultiStart.Copy R k n) :=
  mainWith kmeansppP env 0 _ fun g hk =>
    Driver.kmeansppMain keeps (dist g.ncol) big c (rng _ hk) sched g.datafn g.nrow (g.st.num 's') (g.st.num 'T')
      (g.st.text 'd')

end Mains

end Knor.Cli
