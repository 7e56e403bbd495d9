import Verif.Model.CliMain
import Verif.Spec.Cli

/-!
# Specification: what a command line asks a program to do
-/

namespace Knor.Spec.Cli

open Knor Knor.Cli

variable {R B : Type _}

/-- A command line that program `P` accepts and that is not a request for help. -/
structure Proper (P : Prog) (items : List Item) (rest : List Str) : Prop where
  ok : ∀ i ∈ items, i.Ok P.opts
  legible : Legible P.opts P.positional items rest
  first : NamedFirst P.positional items
  noHelp : Silent P.opts P.positional items rest 'h'
  words : P.minArgs ≤ (render items rest).length + 1

/-- What all programs are told: the data and its size, the tolerance and the centres. -/
structure Basics (R B : Type _) where
  data : List B
  nrow : Nat
  ncol : Nat
  tol : R
  centers : Option (List B)

/-- The command line tells the program `a`: the data are the content of the file that it names, the numbers of rows and
columns are written in decimal, and the tolerance and the file of centres are named or left out. -/
structure AsksBasics (P : Prog) (env : Env R B) (tol0 : R) (items : List Item) (rest : List Str) (a : Basics R B) :
    Prop where
  data : ∃ fn, Says P.opts P.positional items rest 'f' fn ∧ env.files fn = some a.data
  nrow : Says P.opts P.positional items rest 'n' (Nat.toDigits 10 a.nrow)
  nrow_lt : a.nrow < 2 ^ 63
  ncol : Says P.opts P.positional items rest 'm' (Nat.toDigits 10 a.ncol)
  ncol_lt : a.ncol < 2 ^ 63
  tol : (∃ w, Says P.opts P.positional items rest 'l' w ∧ env.stod w = .ok a.tol) ∨
    Silent P.opts P.positional items rest 'l' ∧ a.tol = tol0
  centers : (∃ w f, Says P.opts P.positional items rest 'C' w ∧ env.files w = some f ∧ a.centers = some f) ∨
    Silent P.opts P.positional items rest 'C' ∧ a.centers = none

/-- What all programs are told about the run. -/
structure Args (R B : Type _) extends Basics R B where
  k : Nat
  iters : Nat
  threads : Nat
  dist : String
  outdir : String

/-- The command line tells the program `a`.  What is left out is `UINT_MAX` iterations, the number of threads of the
machine, and the metric `dist0` and tolerance `tol0` of the program; nothing is written unless a directory is named. -/
structure Asks (P : Prog) (env : Env R B) (tol0 : R) (dist0 : String) (items : List Item) (rest : List Str)
    (a : Args R B) : Prop where
  proper : Proper P items rest
  basics : AsksBasics P env tol0 items rest a.toBasics
  k : Says P.opts P.positional items rest 'k' (Nat.toDigits 10 a.k)
  k_lt : a.k < 2 ^ 32
  k_pos : 0 < a.k
  iters : Number P.opts P.positional items rest 'i' 4294967295 a.iters
  threads : Number P.opts P.positional items rest 'T' env.threads a.threads
  dist : Text P.opts P.positional items rest 'd' dist0 a.dist
  outdir : Text P.opts P.positional items rest 'o' "" a.outdir

/-- What `knori` is told. -/
structure KnoriArgs (R B : Type _) extends Args R B where
  init : String
  omp : Bool
  noPrune : Bool

/-- The command line tells `knori` `a`.  What is left out is `kmeanspp`, `eucl` and the tolerance -1. -/
structure AsksKnori [Neg R] [One R] (env : Env R B) (items : List Item) (rest : List Str) (a : KnoriArgs R B) :
    Prop where
  args : Asks knoriP env (-1) "eucl" items rest a.toArgs
  init : Text knoriP.opts knoriP.positional items rest 't' "kmeanspp" a.init
  omp : Flag knoriP.opts knoriP.positional items rest 'O' a.omp
  noPrune : Flag knoriP.opts knoriP.positional items rest 'P' a.noPrune

end Knor.Spec.Cli
