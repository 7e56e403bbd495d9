import Verif.Model.CliMain
import Verif.Model.DistrDriver

/-!
# `knord` from the command line

`knord` takes four words and then options, which it reads with `getopt` of the C library.  Modelled is GNU `getopt`
without `POSIXLY_CORRECT`: words that are no options are passed over, wherever they are.
-/

namespace Knor.Cli

open Knor Knor.Io

variable {R S B : Type _}

/-- The options; a colon says that the letter before it takes an argument.  Models exec/knord.cpp:64. -/
def optstring : Str := nm "l:i:t:T:d:C:PN:o:"

/-- Whether the letter is an option, and whether it takes an argument.  Models `getopt` of the C library, as used in
exec/knord.cpp:64. -/
def lookup (x : Char) : Str → Option Bool
  | [] => none
  | c :: cs => if c = x then some (cs.head? = some ':') else lookup x cs

/-- What one call of `getopt` returns: an option and its argument, or a question mark.  Models exec/knord.cpp:64. -/
inductive Got where
  | opt (x : Char) (arg : Str)
  | bad
  deriving DecidableEq

/-- The letters of a word: what they return, and the letter that takes the next word as its argument.  An argument may
follow its letter in the same word.  Models `getopt` of the C library, as used in exec/knord.cpp:64. -/
def letters : Str → List Got × Option Char
  | [] => ([], none)
  | x :: xs =>
    if x = ':' ∨ x = ';' then ([.bad], none)
    else match lookup x optstring with
      | none => ([.bad], none)
      | some false => (.opt x [] :: (letters xs).1, (letters xs).2)
      | some true => if xs = [] then ([], some x) else ([.opt x xs], none)

/-- Everything that `getopt` returns before -1.  What comes after a question mark is not called for.
Models `getopt` of the C library, as used in exec/knord.cpp:64. -/
def getopt : List Str → List Got
  | [] => []
  | w :: ws =>
    if w = ['-', '-'] then []
    else match w with
      | '-' :: x :: xs =>
        match (letters (x :: xs)).2, ws with
        | none, ws => (letters (x :: xs)).1 ++ getopt ws
        | some _, [] => (letters (x :: xs)).1 ++ [.bad]
        | some y, a :: ws => (letters (x :: xs)).1 ++ .opt y a :: getopt ws
      | _ => getopt ws

/-- `atoi` and the conversion to `unsigned`; a value that does not fit an `int` is undefined behaviour.
Models the C library, as used in exec/knord.cpp:80 and 99. -/
def atoi (s : Str) : Res Nat :=
  let p := atolSign (s.dropWhile isSpace)
  let v := (p.2.takeWhile Char.isDigit).foldl (fun a c => a * 10 + (c.toNat - '0'.toNat)) 0
  if p.1 then
    if 2147483648 < v then .error .ub else .ok (u32 (4294967296 - v))
  else if 2147483648 ≤ v then .error .ub
  else .ok v

/-- What `knord` finds around it: as `Env`, and `atof` and the number of processes.  Simplified: all ranks find the same.
Models exec/knord.cpp:53-57, 68 and libdist/mpi.hpp:41-48. -/
structure JobEnv (R B : Type _) where
  files : Str → Option (List B)
  threads : Nat
  atof : Str → R
  nprocs : Nat

/-- The variables of `knord` that the options set; `centers` is the content of the file.  Simplified: the number of NUMA
nodes is left out.  Models exec/knord.cpp:49-59. -/
structure Vars (R B : Type _) where
  dist : Str
  centers : Option (List B)
  iters : Nat
  init : Str
  threads : Nat
  tol : R
  noPrune : Bool
  outdir : Str

/-- The variables before the loop.  Models exec/knord.cpp:49-59. -/
def Vars.start [Neg R] [One R] (env : JobEnv R B) : Vars R B :=
  ⟨nm "eucl", none, 4294967295, nm "kmeanspp", env.threads, -1, false, []⟩

/-- One round of the loop.  Models exec/knord.cpp:66-109. -/
def handle (env : JobEnv R B) (g : Got) (v : Vars R B) : Outcome (Vars R B) :=
  match g with
  | .bad => .badOption
  | .opt x a =>
    if x = 'l' then .done { v with tol := env.atof a }
    else if x = 'i' then
      match atol a with
      | .error e => .fault e
      | .ok m => .done { v with iters := u32 m }
    else if x = 't' then .done { v with init := a }
    else if x = 'T' then
      match atoi a with
      | .error e => .fault e
      | .ok m => .done { v with threads := m }
    else if x = 'd' then .done { v with dist := a }
    else if x = 'C' then
      match env.files a with
      | none => .fault .assertFail
      | some f => .done { v with centers := some f, init := nm "none" }
    else if x = 'P' then .done { v with noPrune := true }
    else if x = 'N' then
      match atoi a with
      | .error e => .fault e
      | .ok _ => .done v
    else if x = 'o' then .done { v with outdir := a }
    else .badOption

/-- The loop over the options.  Models exec/knord.cpp:64-110. -/
def handleAll (env : JobEnv R B) : List Got → Vars R B → Outcome (Vars R B)
  | [], v => .done v
  | g :: gs, v =>
    match handle env g v with
    | .done v' => handleAll env gs v'
    | o => o

section Main

variable [Zero R] [Neg R] [One R] [Add R] [Sub R] [Mul R] [Div R] [IntCast R] [NatCast R] [LT R] [DecidableLT R] [LE R]
  [DecidableLE R]

/-- `knord`, given the words after its name.  `getopt` sees the word for the number of clusters and what follows.  A data
file that does not exist has size -1, which is not what is expected.  Wrong usage ends with status 1.  Simplified: what
happens with 0 clusters is not followed.  Models exec/knord.cpp:37-147 and libkcommon/util.cpp:130-134. -/
def knordMain (dist : (n : Nat) → Dist.Metric → Row R n → Row R n → R) (big : R) (c : Codec R B)
    (rng : (k : Nat) → 0 < k → Driver.Rng R S k) (sched1 sched2 : Nat → Nat → List Nat) (env : JobEnv R B)
    (argv : List Str) : Outcome (Output (Driver.JobResult R)) :=
  match argv with
  | datafn :: rows :: cols :: clusters :: words =>
    match atol rows with
    | .error e => .fault e
    | .ok nrow =>
      match atol cols with
      | .error e => .fault e
      | .ok ncol =>
        match atol clusters with
        | .error e => .fault e
        | .ok k64 =>
          match handleAll env (getopt (clusters :: words)) (Vars.start env) with
          | .help => .help
          | .usage => .usage
          | .badOption => .badOption
          | .fault e => .fault e
          | .done v =>
            match env.files datafn with
            | none => if v.init = nm "none" ∧ v.centers.isNone then .fault .assertFail else .fault .throws
            | some data =>
              if hk : 0 < u32 k64 then
                finish (Driver.JobResult R) v.outdir (u32 k64) ncol
                  (Driver.knordWith v.noPrune (dist ncol) big c (rng (u32 k64) hk) sched1 sched2 data
                    (String.ofList v.init) v.centers nrow env.nprocs v.iters v.threads v.tol (String.ofList v.dist))
              else .fault .ub
  | _ => .badOption

end Main

end Knor.Cli
