import Verif.Model.KnordCli

/-!
# Specification: what a command line asks `knord` to do

Only the types of words, variables and results are shared with the model.
-/

namespace Knor.Spec.KnordCli

open Knor Knor.Cli

variable {R B : Type _}

/-- The options that take an argument. -/
def withArg : List Char := ['l', 'i', 't', 'T', 'd', 'C', 'N', 'o']

/-- A piece of the command line after the four words. -/
inductive Item where
  /-- `-P` -/
  | prune
  /-- `-T 4`, or `-PT 4` if `p` -/
  | apart (p : Bool) (x : Char) (v : Str)
  /-- `-T4`, or `-PT4` if `p` -/
  | joined (p : Bool) (x : Char) (v : Str)
  /-- a word that is no option -/
  | stray (w : Str)

/-- `-P` before other letters. -/
def pre (p : Bool) : Str := if p then ['P'] else []

/-- How it is written. -/
def Item.words : Item → List Str
  | .prune => [['-', 'P']]
  | .apart p x v => ['-' :: (pre p ++ [x]), v]
  | .joined p x v => ['-' :: (pre p ++ x :: v)]
  | .stray w => [w]

/-- The options it gives, with their arguments. -/
def Item.given : Item → List (Char × Str)
  | .prune => [('P', [])]
  | .apart p x v => (if p then [('P', [])] else []) ++ [(x, v)]
  | .joined p x v => (if p then [('P', [])] else []) ++ [(x, v)]
  | .stray _ => []

/-- It is used as intended. -/
def Item.Ok : Item → Prop
  | .prune => True
  | .apart _ x _ => x ∈ withArg
  | .joined _ x v => x ∈ withArg ∧ v ≠ []
  | .stray w => w.head? ≠ some '-' ∨ w = ['-']

/-- Nothing, or `--` and words after it. -/
def ending : Option (List Str) → List Str
  | none => []
  | some ws => ['-', '-'] :: ws

/-- The command line: file, numbers of rows, columns and clusters, items, and possibly `--` and words after it. -/
def render (fn : Str) (nrow ncol k : Nat) (items : List Item) (rest : Option (List Str)) : List Str :=
  fn :: Nat.toDigits 10 nrow :: Nat.toDigits 10 ncol :: Nat.toDigits 10 k ::
    (items.flatMap Item.words ++ ending rest)

/-- All options that are given, in order. -/
def given (items : List Item) : List (Char × Str) := items.flatMap Item.given

/-- The arguments of one option, in order. -/
def texts (x : Char) (items : List Item) : List Str :=
  (given items).filterMap fun p => if p.1 = x then some p.2 else none

/-- The options that decide where the centroids start. -/
def starts (files : Str → Option (List B)) (items : List Item) : List (Driver.StartOpt B) :=
  (given items).filterMap fun p =>
    if p.1 = 't' then some (.init (String.ofList p.2)) else if p.1 = 'C' then some (.centers (files p.2)) else none

/-- The option takes the number `n`: it is given, the last time in decimal, or it is not given and `n` is the default. -/
def Number (x : Char) (items : List Item) (default n : Nat) : Prop :=
  (texts x items).getLast? = some (Nat.toDigits 10 n) ∨ texts x items = [] ∧ n = default

/-- The option takes the string `s`. -/
def Text (x : Char) (items : List Item) (default s : String) : Prop :=
  (texts x items).getLast? = some s.toList ∨ texts x items = [] ∧ s = default

/-- Arguments that are numbers are written in decimal and fit their variables, and files of centres exist. -/
def Legible (files : Str → Option (List B)) (items : List Item) : Prop :=
  (∀ v ∈ texts 'i' items, ∃ m : Nat, m < 2 ^ 32 ∧ v = Nat.toDigits 10 m) ∧
  (∀ v ∈ texts 'T' items, ∃ m : Nat, m < 2 ^ 31 ∧ v = Nat.toDigits 10 m) ∧
  (∀ v ∈ texts 'N' items, ∃ m : Nat, m < 2 ^ 31 ∧ v = Nat.toDigits 10 m) ∧
  ∀ v ∈ texts 'C' items, files v ≠ none

/-- What `knord` is told. -/
structure Args (R B : Type _) where
  data : List B
  nrow : Nat
  ncol : Nat
  k : Nat
  iters : Nat
  threads : Nat
  tol : R
  dist : String
  noPrune : Bool
  outdir : String

/-- The command line tells `knord` `a`.  What is left out is `UINT_MAX` iterations, the number of threads of the machine,
the tolerance -1 and the metric `eucl`; nothing is written unless a directory is named. -/
structure Asks [Neg R] [One R] (env : JobEnv R B) (fn : Str) (items : List Item) (a : Args R B) : Prop where
  ok : ∀ i ∈ items, i.Ok
  legible : Legible env.files items
  data : env.files fn = some a.data
  nrow_lt : a.nrow < 2 ^ 63
  ncol_lt : a.ncol < 2 ^ 63
  k_pos : 0 < a.k
  k_lt : a.k < 2 ^ 32
  iters : Number 'i' items 4294967295 a.iters
  threads : Number 'T' items env.threads a.threads
  tol : (∃ w, (texts 'l' items).getLast? = some w ∧ env.atof w = a.tol) ∨ texts 'l' items = [] ∧ a.tol = -1
  dist : Text 'd' items "eucl" a.dist
  noPrune : a.noPrune = true ↔ texts 'P' items ≠ []
  outdir : Text 'o' items "" a.outdir

/-- The rest of the command line begins with a mistake: something that is no option after a dash, or an argument is
missing. -/
inductive Mistake : List Str → Prop
  | unknown (p : Bool) (x : Char) (xs : Str) (ws : List Str) (hx : x ∉ withArg) (hP : x ≠ 'P')
      (hd : ¬ (p = false ∧ x = '-' ∧ xs = [])) : Mistake (('-' :: (pre p ++ x :: xs)) :: ws)
  | missing (p : Bool) (x : Char) (hx : x ∈ withArg) : Mistake ['-' :: (pre p ++ [x])]

end Knor.Spec.KnordCli
