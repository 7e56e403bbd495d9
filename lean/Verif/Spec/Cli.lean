import Verif.Model.Cli

/-!
# Specification: what a command line means

Stated without reference to the parser; only the types of words, options and values are shared with the model.
-/

namespace Knor.Spec.Cli

open Knor.Cli

/-- The word `w` is how the value `v` of type `ty` is written: strings stand for themselves, numbers are written in
decimal or, after `0x`, in hexadecimal. -/
def Reads : Ty → Str → Val → Prop
  | .str, w, v => v = .str w
  | .u32, w, v => ∃ n : Nat, n < 2 ^ 32 ∧ v = .num n ∧
      (w = Nat.toDigits 10 n ∨ 0 < n ∧ w = '0' :: 'x' :: Nat.toDigits 16 n)
  | .i16, w, v => (∃ n : Nat, n < 2 ^ 15 ∧ v = .num n ∧ w = Nat.toDigits 10 n) ∨
      ∃ n : Nat, 0 < n ∧ n ≤ 2 ^ 15 ∧ v = .num (-(n : Int)) ∧ w = '-' :: Nat.toDigits 10 n
  | .bool, _, v => v = .flag true

/-- A piece of a command line, as a user thinks of it. -/
inductive Item where
  /-- a positional parameter -/
  | pos (w : Str)
  /-- `-P`, `-PO`: flags by letter -/
  | flags (os : List Opt)
  /-- `-k 8`, `-PTk 8`: flags by letter, then an option with an argument -/
  | short (os : List Opt) (o : Opt) (v : Str)
  /-- `--prune` -/
  | longFlag (o : Opt)
  /-- `--nclust 8` -/
  | long (o : Opt) (v : Str)
  /-- `--nclust=8` -/
  | longEq (o : Opt) (v : Str)

/-- How it is written. -/
def Item.words : Item → List Str
  | .pos w => [w]
  | .flags os => ['-' :: os.map Opt.short]
  | .short os o v => ['-' :: (os.map Opt.short ++ [o.short]), v]
  | .longFlag o => ['-' :: '-' :: o.long]
  | .long o v => ['-' :: '-' :: o.long, v]
  | .longEq o v => ['-' :: '-' :: (o.long ++ '=' :: v)]

/-- The options it names, with their arguments. -/
def Item.named : Item → List (Opt × Str)
  | .pos _ => []
  | .flags os => os.map fun o => (o, [])
  | .short os o v => (os.map fun o => (o, [])) ++ [(o, v)]
  | .longFlag o => [(o, [])]
  | .long o v => [(o, v)]
  | .longEq o v => [(o, v)]

/-- The positional parameters in it. -/
def Item.placed : Item → List Str
  | .pos w => [w]
  | _ => []

/-- It is used as intended: flags take no argument and other options do, an argument after `=` is on one line and not
empty, and a positional parameter does not begin with a dash. -/
def Item.Ok (opts : List Opt) : Item → Prop
  | .pos w => w.head? ≠ some '-'
  | .flags os => os ≠ [] ∧ ∀ o ∈ os, o ∈ opts ∧ o.ty = .bool
  | .short os o _ => (∀ o ∈ os, o ∈ opts ∧ o.ty = .bool) ∧ o ∈ opts ∧ o.ty ≠ .bool
  | .longFlag o => o ∈ opts ∧ o.ty = .bool
  | .long o _ => o ∈ opts ∧ o.ty ≠ .bool
  | .longEq o v => o ∈ opts ∧ o.ty ≠ .bool ∧ v ≠ [] ∧ '\n' ∉ v ∧ '\r' ∉ v

/-- The table of options is sound: letters and names are made of the characters that the syntax allows, none is used
twice, and the positional parameters are options. -/
structure TableOk (opts : List Opt) (positional : List Str) : Prop where
  letter : ∀ o ∈ opts, o.short.isAlphanum
  name : ∀ o ∈ opts, ∃ a b l, o.long = a :: b :: l ∧ a.isAlphanum ∧
    ∀ c ∈ o.long, c.isAlphanum ∨ c = '-' ∨ c = '_'
  letters : (opts.map Opt.short).Nodup
  names : (opts.map Opt.long).Nodup
  places : ∀ p ∈ positional, ∃ o ∈ opts, o.long = p
  order : positional.Nodup

/-- All arguments given to `o` by name, in order. -/
def texts (o : Opt) (items : List Item) : List Str :=
  (items.flatMap Item.named).filterMap fun p => if p.1 = o then some p.2 else none

/-- All positional words, in order: those among the items and those after `--`. -/
def places (items : List Item) (rest : List Str) : List Str := items.flatMap Item.placed ++ rest

/-- The positional parameters that are not given by name, in order. -/
def unnamed (opts : List Opt) (positional : List Str) (items : List Item) : List Opt :=
  positional.filterMap fun p => opts.find? fun o => o.long = p && (texts o items).isEmpty

/-- Words of a whole command line: items, and possibly `--` and words that are taken as they are. -/
def render (items : List Item) (rest : List Str) : List Str :=
  items.flatMap Item.words ++ if rest = [] then [] else ['-', '-'] :: rest

/-- The command line gives the option with letter `x` the argument `w`: it is the last one given by name, or the
option is a positional parameter that is not given by name and `w` stands at its place. -/
def Says (opts : List Opt) (positional : List Str) (items : List Item) (rest : List Str) (x : Char) (w : Str) : Prop :=
  ∃ o ∈ opts, o.short = x ∧ ((texts o items).getLast? = some w ∨
    ∃ i : Nat, (unnamed opts positional items)[i]? = some o ∧ (places items rest)[i]? = some w)

/-- The command line says nothing about the option with letter `x`. -/
def Silent (opts : List Opt) (positional : List Str) (items : List Item) (rest : List Str) (x : Char) : Prop :=
  ∀ o ∈ opts, o.short = x → texts o items = [] ∧
    ∀ i : Nat, (unnamed opts positional items)[i]? = some o → (places items rest)[i]? = none

/-- The command line sets the variables as it should: an option given by name has the last argument it was given; the
positional words go to the positional parameters that are not given by name, in order; all other variables keep their
values.  Counts are exact. -/
structure Means (opts : List Opt) (positional : List Str) (items : List Item) (rest : List Str) (st0 st : St) : Prop where
  byName : ∀ o ∈ opts, ∀ t, (texts o items).getLast? = some t → Reads o.ty t (st.val o.short)
  byPlace : ∀ (i : Nat) (o : Opt) (w : Str), (unnamed opts positional items)[i]? = some o → (places items rest)[i]? = some w →
    Reads o.ty w (st.val o.short) ∧ st.count o.short = 1
  keeps : ∀ x, Silent opts positional items rest x → st.val x = st0.val x ∧ st.count x = 0
  count : ∀ o ∈ opts, texts o items ≠ [] → st.count o.short = (texts o items).length

/-- The option with letter `x` takes the number `n`: it is given in decimal, or not given and `n` is the default. -/
def Number (opts : List Opt) (positional : List Str) (items : List Item) (rest : List Str) (x : Char) (default n : Nat) :
    Prop :=
  n < 2 ^ 32 ∧ Says opts positional items rest x (Nat.toDigits 10 n) ∨ Silent opts positional items rest x ∧ n = default

/-- The option with letter `x` takes the string `s`: it is given, or not given and `s` is the default. -/
def Text (opts : List Opt) (positional : List Str) (items : List Item) (rest : List Str) (x : Char) (default s : String) :
    Prop :=
  Says opts positional items rest x s.toList ∨ Silent opts positional items rest x ∧ s = default

/-- The flag with letter `x` is given or not. -/
def Flag (opts : List Opt) (positional : List Str) (items : List Item) (rest : List Str) (x : Char) (b : Bool) : Prop :=
  b = true ∧ (∃ w, Says opts positional items rest x w) ∨ b = false ∧ Silent opts positional items rest x

/-- All arguments are legible. -/
def Legible (opts : List Opt) (positional : List Str) (items : List Item) (rest : List Str) : Prop :=
  (∀ p ∈ items.flatMap Item.named, ∃ v, Reads p.1.ty p.2 v) ∧
  ∀ (i : Nat) (o : Opt) (w : Str), (unnamed opts positional items)[i]? = some o → (places items rest)[i]? = some w → ∃ v, Reads o.ty w v

/-- Positional parameters that are given by name are given before the first positional word: nothing that comes after
a positional word names one. -/
def NamedFirst (positional : List Str) (items : List Item) : Prop :=
  items.Pairwise fun a b => a.placed ≠ [] → ∀ p ∈ b.named, p.1.long ∉ positional

/-- The word is no unsigned number: it is empty, has a character that is neither a letter nor a digit, or begins with a
superfluous zero. -/
def NoNumber (w : Str) : Prop :=
  w = [] ∨ (∃ c ∈ w, c.isAlphanum = false) ∨ ∃ c r, w = '0' :: c :: r ∧ c ≠ 'x'

/-- The word cannot be the argument of an option of type `ty`; a `short` may have a minus sign. -/
def Illegible : Ty → Str → Prop
  | .u32, w => NoNumber w
  | .i16, w => NoNumber w ∧ w.head? ≠ some '-' ∨ ∃ r, w = '-' :: r ∧ NoNumber r
  | _, _ => False

/-- The rest of a command line begins with a mistake. -/
inductive Mistake (opts : List Opt) : List Str → Prop
  /-- a letter that is no option, possibly after flags -/
  | letter (os : List Opt) (x : Char) (xs : Str) (ws : List Str) (ho : ∀ o ∈ os, o ∈ opts ∧ o.ty = .bool)
      (hx : ∀ o ∈ opts, o.short ≠ x) (ha : ∀ c ∈ os.map Opt.short ++ x :: xs, c.isAlphanum) :
      Mistake opts (('-' :: (os.map Opt.short ++ x :: xs)) :: ws)
  /-- the letter of an option that takes an argument, followed by more letters -/
  | middle (os : List Opt) (o : Opt) (x : Char) (xs : Str) (ws : List Str)
      (ho : ∀ o ∈ os, o ∈ opts ∧ o.ty = .bool) (hm : o ∈ opts) (ht : o.ty ≠ .bool)
      (ha : ∀ c ∈ os.map Opt.short ++ o.short :: x :: xs, c.isAlphanum) :
      Mistake opts (('-' :: (os.map Opt.short ++ o.short :: x :: xs)) :: ws)
  /-- an option by letter at the end whose argument is missing -/
  | shortEnd (os : List Opt) (o : Opt) (ho : ∀ o ∈ os, o ∈ opts ∧ o.ty = .bool) (hm : o ∈ opts) (ht : o.ty ≠ .bool) :
      Mistake opts ['-' :: (os.map Opt.short ++ [o.short])]
  /-- a name that is no option -/
  | name (a b : Char) (l : Str) (ws : List Str) (ha : a.isAlphanum)
      (hl : ∀ c ∈ a :: b :: l, c.isAlphanum ∨ c = '-' ∨ c = '_') (hn : ∀ o ∈ opts, o.long ≠ a :: b :: l) :
      Mistake opts (('-' :: '-' :: a :: b :: l) :: ws)
  /-- a name that is no option, with an argument -/
  | nameEq (a b : Char) (l v : Str) (ws : List Str) (ha : a.isAlphanum)
      (hl : ∀ c ∈ a :: b :: l, c.isAlphanum ∨ c = '-' ∨ c = '_') (hn : ∀ o ∈ opts, o.long ≠ a :: b :: l)
      (hv : '\n' ∉ v ∧ '\r' ∉ v) : Mistake opts (('-' :: '-' :: ((a :: b :: l) ++ '=' :: v)) :: ws)
  /-- an option by name at the end whose argument is missing -/
  | longEnd (o : Opt) (hm : o ∈ opts) (ht : o.ty ≠ .bool) : Mistake opts ['-' :: '-' :: o.long]
  /-- an argument for a flag -/
  | flagEq (o : Opt) (v : Str) (ws : List Str) (hm : o ∈ opts) (ht : o.ty = .bool)
      (hv : v ≠ [] ∧ '\n' ∉ v ∧ '\r' ∉ v) : Mistake opts (('-' :: '-' :: (o.long ++ '=' :: v)) :: ws)
  /-- an argument that is no number where a number is expected -/
  | number (i : Item) (o : Opt) (v : Str) (ws : List Str) (hi : i.Ok opts) (hn : (o, v) ∈ i.named)
      (hv : Illegible o.ty v) : Mistake opts (i.words ++ ws)

end Knor.Spec.Cli
