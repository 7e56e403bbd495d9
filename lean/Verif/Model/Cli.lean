import Verif.Basic

/-!
# The command line (`libkcommon/cxxopts/cxxopts.hpp`)

The parser that all programs of exec/ except `knord` use, for the option types that they use: `std::string`,
`unsigned`, `short` and `bool`.  Words are lists of characters; `[[:alnum:]]` is that of the C locale.

* `none` as a result of a parsing function is an `OptionException`.
* An option is identified by its letter; all options of all programs have one.
* Simplified: no program gives an option a default or an implicit value or a container type, so these are left out;
  the words that remain in `argv` are not returned, as no program looks at them; help texts are left out.
-/

namespace Knor.Cli

/-- A word of the command line (libkcommon/cxxopts/cxxopts.hpp:1328). -/
abbrev Str := List Char

/-- Type of the variable an option is bound to.  Models libkcommon/cxxopts/cxxopts.hpp:536-606, 616-627. -/
inductive Ty where
  | str | u32 | i16 | bool
  deriving DecidableEq

/-- An option.  Models libkcommon/cxxopts/cxxopts.hpp:757-768 (`OptionDetails`) and 1163-1218 (`"f,datafn"` gives the
two names). -/
structure Opt where
  short : Char
  long : Str
  ty : Ty
  deriving DecidableEq

/-- The content of the variable of an option.  Models libkcommon/cxxopts/cxxopts.hpp:616-627. -/
inductive Val where
  | str (s : Str)
  | num (n : Int)
  | flag (b : Bool)
  deriving DecidableEq

/-- `[[:alnum:]]`.  Models libkcommon/cxxopts/cxxopts.hpp:1046 and 418. -/
def isAlnum (c : Char) : Bool := c.isAlphanum

/-- `[-_[:alnum:]]`.  Models libkcommon/cxxopts/cxxopts.hpp:1046. -/
def isNameChar (c : Char) : Bool := c = '-' || c = '_' || isAlnum c

/-- What `option_matcher` says of a word: groups 1 and 3, or group 4, or no match.
Models libkcommon/cxxopts/cxxopts.hpp:1045-1046. -/
inductive Word where
  | long (name val : Str)
  | short (letters : Str)
  | other
  deriving DecidableEq

/-- `regex_match(argv[current], result, option_matcher)` for
`--([[:alnum:]][-_[:alnum:]]+)(=(.*))?|-([[:alnum:]]+)`: a name has no `=`, so the split is unique; `.` is any
character but the end of a line.  Group 3 that did not match is empty.
Models libkcommon/cxxopts/cxxopts.hpp:1045-1046 and 1346-1347. -/
def classify (w : Str) : Word :=
  match w with
  | '-' :: '-' :: rest =>
    match rest.takeWhile isNameChar, rest.dropWhile isNameChar with
    | a :: b :: l, [] => if isAlnum a then .long (a :: b :: l) [] else .other
    | a :: b :: l, '=' :: v =>
      if isAlnum a ∧ v.all (fun c => c ≠ '\n' && c ≠ '\r') then .long (a :: b :: l) v else .other
    | _, _ => .other
  | '-' :: s => if s ≠ [] ∧ s.all isAlnum then .short s else .other
  | _ => .other

/-- The value of a digit; letters after `f` count as 0.  Models libkcommon/cxxopts/cxxopts.hpp:497-510. -/
def digit (c : Char) : Nat :=
  if '0' ≤ c ∧ c ≤ '9' then c.toNat - '0'.toNat
  else if 'a' ≤ c ∧ c ≤ 'f' then c.toNat - 'a'.toNat + 10
  else if 'A' ≤ c ∧ c ≤ 'F' then c.toNat - 'A'.toNat + 10
  else 0

/-- `result * base` in a `w`-bit unsigned type: types narrower than `int` are promoted, `unsigned` wraps.
Models libkcommon/cxxopts/cxxopts.hpp:512. -/
def mulW (w a b : Nat) : Nat := if w < 32 then a * b else a * b % 2 ^ w

/-- The loop over the digits.  Models libkcommon/cxxopts/cxxopts.hpp:493-518. -/
def digits (w base : Nat) : Str → Nat → Option Nat
  | [], result => some result
  | c :: cs, result =>
    if 2 ^ w - 1 - digit c < mulW w result base then none
    else digits w base cs ((mulW w result base + digit c) % 2 ^ w)

/-- Group 1 of the pattern of numbers: the sign.  Models libkcommon/cxxopts/cxxopts.hpp:418 and 488. -/
def sign : Str → Bool × Str
  | '-' :: r => (true, r)
  | s => (false, s)

/-- Group 2 of the pattern of numbers: the base.  Models libkcommon/cxxopts/cxxopts.hpp:418 and 489. -/
def radix : Str → Nat × Str
  | '0' :: 'x' :: r => (16, r)
  | s => (10, s)

/-- Group 3 of the pattern of numbers and its value.  Models libkcommon/cxxopts/cxxopts.hpp:418 and 491-518. -/
def magnitude (w base : Nat) : Str → Option Nat
  | [] => none
  | c :: r => if isAlnum c ∧ c ≠ '0' ∧ r.all isAlnum then digits w base (c :: r) 0 else none

/-- The range check of `integer_parser`.  Models libkcommon/cxxopts/cxxopts.hpp:423-463 and 520-533. -/
def inRange (w : Nat) (signed neg : Bool) (u : Nat) : Option Int :=
  if signed then
    if u > (if neg then 2 ^ (w - 1) else 2 ^ (w - 1) - 1) then none
    else some (if neg then -(u : Int) else u)
  else if neg then none
  else some u

/-- `integer_parser` for a `w`-bit type: the pattern `(-)?(0x)?([1-9a-zA-Z][0-9a-zA-Z]*)|(0)`, the digits, and the
range check.  A sign or a prefix that is there has to be taken by its group, so the match is unique.
Models libkcommon/cxxopts/cxxopts.hpp:415-419 and 466-534. -/
def intParser (w : Nat) (signed : Bool) (text : Str) : Option Int :=
  if text = ['0'] then some 0
  else (magnitude w (radix (sign text).2).1 (radix (sign text).2).2).bind (inRange w signed (sign text).1)

/-- `parse_value`.  Models libkcommon/cxxopts/cxxopts.hpp:536-606. -/
def parseValue (ty : Ty) (text : Str) : Option Val :=
  match ty with
  | .str => some (.str text)
  | .u32 => (intParser 32 false text).map .num
  | .i16 => (intParser 16 true text).map .num
  | .bool => some (.flag true)

/-- The variables and how often each option was given.  Models libkcommon/cxxopts/cxxopts.hpp:757-800. -/
structure St where
  val : Char → Val
  count : Char → Nat

/-- `m_options.find(name)`: the map holds both names of every option.
Models libkcommon/cxxopts/cxxopts.hpp:1486-1535. -/
def find (opts : List Opt) (name : Str) : Option Opt := opts.find? fun o => o.long = name || [o.short] = name

/-- `parse_option`.  Models libkcommon/cxxopts/cxxopts.hpp:783-788 and 1220-1229. -/
def parseOption (o : Opt) (text : Str) (st : St) : Option St :=
  match parseValue o.ty text with
  | none => none
  | some v => some
      { val := fun x => if x = o.short then v else st.val x
        count := fun x => if x = o.short then st.count x + 1 else st.count x }

/-- `consume_positional`: the next positional parameter that has not been given takes the word.  Returns what is left
of the list of parameters; a word for which there is none is dropped.
Models libkcommon/cxxopts/cxxopts.hpp:1279-1311. -/
def consume (opts : List Opt) (a : Str) : List Str → St → Option (List Str × St)
  | [], st => some ([], st)
  | p :: ps, st =>
    match find opts p with
    | none => consume opts a ps st
    | some o =>
      if st.count o.short = 0 then
        match parseOption o a st with
        | none => none
        | some st' => some (ps, st')
      else consume opts a ps st

/-- The loop over the letters of a word of short options: flags are set; an option that takes an argument has to be the
last, and is returned.  Models libkcommon/cxxopts/cxxopts.hpp:1366-1406. -/
def shorts (opts : List Opt) : Str → St → Option (St × Option Opt)
  | [], st => some (st, none)
  | x :: xs, st =>
    match find opts [x] with
    | none => none
    | some o =>
      if o.ty = .bool then
        match parseOption o [] st with
        | none => none
        | some st' => shorts opts xs st'
      else if xs = [] then some (st, some o)
      else none

/-- A word `--name` or `--name=val`; an option that takes the next word as its argument is returned.  An empty `val` is
as good as none.  Models libkcommon/cxxopts/cxxopts.hpp:1408-1445. -/
def long (opts : List Opt) (name val : Str) (st : St) : Option (St × Option Opt) :=
  match find opts name with
  | none => none
  | some o =>
    if val ≠ [] then
      if o.ty = .bool then none
      else (parseOption o val st).map fun st' => (st', none)
    else if o.ty = .bool then (parseOption o [] st).map fun st' => (st', none)
    else some (st, some o)

/-- The words after `--`.  Models libkcommon/cxxopts/cxxopts.hpp:1464-1473. -/
def remaining (opts : List Opt) : List Str → List Str → St → Option St
  | [], _, st => some st
  | w :: ws, next, st =>
    match consume opts w next st with
    | none => none
    | some (next', st') => remaining opts ws next' st'

/-- `parse`: the words after the name of the program; `next` are the positional parameters still to come.
Models libkcommon/cxxopts/cxxopts.hpp:1231-1263 (`checked_parse_arg`) and 1328-1484. -/
def parse (opts : List Opt) (words : List Str) (next : List Str) (st : St) : Option St :=
  match words with
  | [] => some st
  | w :: ws =>
    if w = ['-', '-'] then remaining opts ws next st
    else
      let step : Option (List Str × St × Option Opt) :=
        match classify w with
        | .other => (consume opts w next st).map fun p => (p.1, p.2, none)
        | .short s => (shorts opts s st).map fun p => (next, p.1, p.2)
        | .long name val => (long opts name val st).map fun p => (next, p.1, p.2)
      match step with
      | none => none
      | some (next', st', none) => parse opts ws next' st'
      | some (next', st', some o) =>
        match ws with
        | [] => none
        | a :: ws' =>
          match parseOption o a st' with
          | none => none
          | some st'' => parse opts ws' next' st''

end Knor.Cli
