import Mathlib.Tactic.IntervalCases
import Mathlib.Tactic.NormNum
import Mathlib.Data.List.Nodup
import Mathlib.Data.List.TakeWhile
import Verif.Spec.Cli

/-!
# Lemmas on the command line parser
-/

namespace Knor.Cli

open Knor Knor.Spec.Cli

/-! ### Numbers -/

theorem digit_digitChar {d : Nat} (h : d < 16) : digit d.digitChar = d := by
  interval_cases d <;> decide

theorem alnum_digitChar {d : Nat} (h : d < 16) : isAlnum d.digitChar = true := by
  interval_cases d <;> decide

theorem digitChar_zero {d : Nat} (h : d < 16) (h0 : 0 < d) : d.digitChar ≠ '0' := by
  interval_cases d <;> decide

theorem digits_append (w b : Nat) (s : Str) (c : Char) (r : Nat) :
    digits w b (s ++ [c]) r = (digits w b s r).bind fun q => digits w b [c] q := by
  induction s generalizing r with
  | nil => rfl
  | cons a s ih =>
    rw [List.cons_append, digits, digits]
    split
    · rfl
    · exact ih _

theorem digits_one {w b q : Nat} {d : Nat} (hd : d < 16) (h : q * b + d < 2 ^ w) :
    digits w b [d.digitChar] q = some (q * b + d) := by
  have hm : mulW w q b = q * b := by
    unfold mulW
    split
    · rfl
    · exact Nat.mod_eq_of_lt (by omega)
  rw [digits, digits, digit_digitChar hd, hm, if_neg (by omega), Nat.mod_eq_of_lt h]

theorem digits_toDigits {w b : Nat} (hb : 1 < b) (hb' : b ≤ 16) (n : Nat) (h : n < 2 ^ w) :
    digits w b (Nat.toDigits b n) 0 = some n := by
  induction n using Nat.strongRecOn with
  | ind n ih =>
    by_cases hn : n < b
    · rw [Nat.toDigits_of_lt_base hn, digits_one (by omega) (by omega)]
      simp
    · have hlt : n / b < n := Nat.div_lt_self (by omega) hb
      have hmod := Nat.mod_lt n (show b > 0 by omega)
      have hdm : n / b * b + n % b = n := by rw [Nat.mul_comm]; exact Nat.div_add_mod n b
      rw [Nat.toDigits_of_base_le hb (by omega), digits_append, ih _ hlt (by omega), Option.bind_some,
        digits_one (by omega) (by omega), hdm]

theorem toDigits_cons {b : Nat} (hb : 1 < b) (hb' : b ≤ 16) (n : Nat) (hn : 0 < n) :
    ∃ c r, Nat.toDigits b n = c :: r ∧ isAlnum c = true ∧ c ≠ '0' ∧ r.all isAlnum = true := by
  induction n using Nat.strongRecOn with
  | ind n ih =>
    by_cases h : n < b
    · exact ⟨n.digitChar, [], Nat.toDigits_of_lt_base h, alnum_digitChar (by omega), digitChar_zero (by omega) hn, rfl⟩
    · obtain ⟨c, r, h1, h2, h3, h4⟩ := ih _ (Nat.div_lt_self (by omega) hb) (Nat.div_pos (by omega) (by omega))
      refine ⟨c, r ++ [(n % b).digitChar], ?_, h2, h3, ?_⟩
      · rw [Nat.toDigits_of_base_le hb (by omega), h1]; rfl
      · have hmod := Nat.mod_lt n (show b > 0 by omega)
        rw [List.all_append, h4, List.all_cons, alnum_digitChar (by omega)]; rfl


theorem sign_of_ne {s : Str} (h : s.head? ≠ some '-') : sign s = (false, s) := by
  unfold sign
  split
  next => exact absurd rfl h
  next => rfl

theorem radix_of_ne {s : Str} (h : s.head? ≠ some '0') : radix s = (10, s) := by
  unfold radix
  split
  next => exact absurd rfl h
  next => rfl

/-- A positive number in decimal, possibly after a minus sign. -/
theorem intParser_dec {w : Nat} (signed neg : Bool) {n : Nat} (h0 : 0 < n) (h : n < 2 ^ w) :
    intParser w signed ((if neg then ['-'] else []) ++ Nat.toDigits 10 n) = inRange w signed neg n := by
  obtain ⟨c, r, h1, h2, h3, h4⟩ := toDigits_cons (b := 10) (by norm_num) (by norm_num) n h0
  have hd := digits_toDigits (b := 10) (by norm_num) (by norm_num) n h
  rw [h1] at hd ⊢
  have hdash : c ≠ '-' := by rintro rfl; exact absurd h2 (by decide)
  have hs : sign ((if neg then ['-'] else []) ++ c :: r) = (neg, c :: r) := by
    cases neg with
    | true => rfl
    | false => exact sign_of_ne (by simpa using hdash)
  have hr : radix (c :: r) = (10, c :: r) := radix_of_ne (by simpa using h3)
  have hm : magnitude w 10 (c :: r) = some n := by
    rw [magnitude, if_pos ⟨h2, h3, h4⟩, hd]
  have hne : (if neg then ['-'] else []) ++ c :: r ≠ ['0'] := by
    cases neg with
    | true => simp
    | false =>
      intro he
      injection he with he1 _
      exact h3 he1
  rw [intParser, if_neg hne, hs]
  simp only [hr, hm, Option.bind_some]

/-- A positive number in hexadecimal. -/
theorem intParser_hex {w : Nat} (signed : Bool) {n : Nat} (h0 : 0 < n) (h : n < 2 ^ w) :
    intParser w signed ('0' :: 'x' :: Nat.toDigits 16 n) = inRange w signed false n := by
  obtain ⟨c, r, h1, h2, h3, h4⟩ := toDigits_cons (b := 16) (by norm_num) (by norm_num) n h0
  have hd := digits_toDigits (b := 16) (by norm_num) (by norm_num) n h
  rw [h1] at hd ⊢
  have hm : magnitude w 16 (c :: r) = some n := by
    rw [magnitude, if_pos ⟨h2, h3, h4⟩, hd]
  rw [intParser, if_neg (by simp)]
  change (magnitude w 16 (c :: r)).bind _ = _
  rw [hm]
  rfl

/-- Words that mean a value are read as that value. -/
theorem parseValue_of_reads {ty : Ty} {w : Str} {v : Val} (h : Reads ty w v) : parseValue ty w = some v := by
  cases ty with
  | str => exact congrArg some h.symm
  | bool => exact congrArg some h.symm
  | u32 =>
    obtain ⟨n, hn, rfl, hw⟩ := h
    rw [parseValue]
    rcases hw with rfl | ⟨h0, rfl⟩
    · rcases Nat.eq_zero_or_pos n with rfl | h0
      · rw [Nat.toDigits_zero]; rfl
      · have := intParser_dec false false h0 hn
        simp only [Bool.false_eq_true, if_false, List.nil_append] at this
        rw [this]; rfl
    · rw [intParser_hex false h0 hn]; rfl
  | i16 =>
    rw [parseValue]
    rcases h with ⟨n, hn, rfl, rfl⟩ | ⟨n, h0, hn, rfl, rfl⟩
    · rcases Nat.eq_zero_or_pos n with rfl | h0
      · rw [Nat.toDigits_zero]; rfl
      · have := intParser_dec (w := 16) true false h0 (by omega)
        simp only [Bool.false_eq_true, if_false, List.nil_append] at this
        rw [this, inRange, if_pos rfl, if_neg (by simp; omega)]
        rfl
    · have := intParser_dec (w := 16) true true h0 (by omega)
      simp only [if_true, List.cons_append, List.nil_append] at this
      rw [this, inRange, if_pos rfl, if_neg (by simp; omega)]
      rfl

/-! ### The shapes of words -/

theorem classify_other {w : Str} (h : w.head? ≠ some '-') : classify w = .other := by
  unfold classify
  split
  next => exact absurd rfl h
  next => exact absurd rfl h
  next => rfl

theorem classify_short {s : Str} (h0 : s ≠ []) (h : ∀ c ∈ s, isAlnum c = true) : classify ('-' :: s) = .short s := by
  have hall : s.all isAlnum = true := List.all_eq_true.2 h
  unfold classify
  split
  next rest heq =>
    injection heq with _ h2
    rw [h2] at h
    exact absurd (h '-' (List.mem_cons_self ..)) (by decide)
  next s' _ heq =>
    injection heq with _ h2
    rw [← h2, if_pos ⟨h0, hall⟩]
  next h1 h2 => exact absurd rfl (h2 s)

/-- A name of a table. -/
theorem name_char {c : Char} (h : c.isAlphanum = true ∨ c = '-' ∨ c = '_') : isNameChar c = true := by
  unfold isNameChar isAlnum
  rcases h with h | rfl | rfl
  · simp [h]
  · rfl
  · rfl

theorem classify_long {a b : Char} {l : Str} (ha : a.isAlphanum = true)
    (h : ∀ c ∈ a :: b :: l, c.isAlphanum = true ∨ c = '-' ∨ c = '_') :
    classify ('-' :: '-' :: (a :: b :: l)) = .long (a :: b :: l) [] := by
  have hall : ∀ c ∈ a :: b :: l, isNameChar c = true := fun c hc => name_char (h c hc)
  have h1 : (a :: b :: l).takeWhile isNameChar = a :: b :: l := List.takeWhile_eq_self_iff.2 hall
  have h2 : (a :: b :: l).dropWhile isNameChar = [] := List.dropWhile_eq_nil_iff.2 hall
  rw [classify, h1, h2]
  exact if_pos ha

theorem classify_longEq {a b : Char} {l v : Str} (ha : a.isAlphanum = true)
    (h : ∀ c ∈ a :: b :: l, c.isAlphanum = true ∨ c = '-' ∨ c = '_') (hn : '\n' ∉ v) (hr : '\r' ∉ v) :
    classify ('-' :: '-' :: ((a :: b :: l) ++ '=' :: v)) = .long (a :: b :: l) v := by
  have hall : ∀ c ∈ a :: b :: l, isNameChar c = true := fun c hc => name_char (h c hc)
  have he : isNameChar '=' = false := by decide
  have h1 : ((a :: b :: l) ++ '=' :: v).takeWhile isNameChar = a :: b :: l := by
    rw [List.takeWhile_append_of_pos hall, List.takeWhile_cons_of_neg (by simp [he]), List.append_nil]
  have h2 : ((a :: b :: l) ++ '=' :: v).dropWhile isNameChar = '=' :: v := by
    rw [List.dropWhile_append_of_pos hall, List.dropWhile_cons_of_neg (by simp [he])]
  have hv : v.all (fun c => c ≠ '\n' && c ≠ '\r') = true := by
    rw [List.all_eq_true]
    intro c hc
    have a1 : c ≠ '\n' := fun e => hn (e ▸ hc)
    have a2 : c ≠ '\r' := fun e => hr (e ▸ hc)
    simp [a1, a2]
  rw [classify, h1, h2]
  exact if_pos ⟨ha, hv⟩

/-! ### Options by name -/

section Table
variable {opts : List Opt} {positional : List Str} (hT : TableOk opts positional)
include hT

theorem find_short {o : Opt} (ho : o ∈ opts) : find opts [o.short] = some o := by
  have huniq : ∀ o' ∈ opts, (decide (o'.long = [o.short]) || decide ([o'.short] = [o.short])) = true → o' = o := by
    intro o' ho' h
    simp only [Bool.or_eq_true, decide_eq_true_eq, List.cons.injEq, and_true] at h
    rcases h with h | h
    · obtain ⟨a, b, l, e, _⟩ := hT.name o' ho'
      rw [e] at h; cases h
    · exact List.inj_on_of_nodup_map hT.letters ho' ho h
  unfold find
  cases hf : opts.find? (fun o' => decide (o'.long = [o.short]) || decide ([o'.short] = [o.short])) with
  | none =>
    rw [List.find?_eq_none] at hf
    exact absurd (by simp) (hf o ho)
  | some o' =>
    have hp := List.find?_some hf
    rw [huniq o' (List.mem_of_find?_eq_some hf) hp]

theorem find_long {o : Opt} (ho : o ∈ opts) : find opts o.long = some o := by
  obtain ⟨a, b, l, e, _⟩ := hT.name o ho
  have huniq : ∀ o' ∈ opts, (decide (o'.long = o.long) || decide ([o'.short] = o.long)) = true → o' = o := by
    intro o' ho' h
    simp only [Bool.or_eq_true, decide_eq_true_eq] at h
    rcases h with h | h
    · exact List.inj_on_of_nodup_map hT.names ho' ho h
    · rw [e] at h; cases h
  unfold find
  cases hf : opts.find? (fun o' => decide (o'.long = o.long) || decide ([o'.short] = o.long)) with
  | none =>
    rw [List.find?_eq_none] at hf
    exact absurd (by simp) (hf o ho)
  | some o' =>
    have hp := List.find?_some hf
    rw [huniq o' (List.mem_of_find?_eq_some hf) hp]

end Table

/-! ### Command lines as sequences of events -/

/-- An option is named, or a positional word comes. -/
inductive Ev where
  | named (o : Opt) (t : Str)
  | place (w : Str)

/-- What the parser does with them. -/
def exec (opts : List Opt) : List Ev → List Str → St → Option (List Str × St)
  | [], next, st => some (next, st)
  | .named o t :: es, next, st =>
    match parseOption o t st with
    | none => none
    | some st' => exec opts es next st'
  | .place w :: es, next, st =>
    match consume opts w next st with
    | none => none
    | some (next', st') => exec opts es next' st'

theorem exec_append (opts : List Opt) (l1 l2 : List Ev) (next : List Str) (st : St) :
    exec opts (l1 ++ l2) next st = (exec opts l1 next st).bind fun p => exec opts l2 p.1 p.2 := by
  induction l1 generalizing next st with
  | nil => rfl
  | cons e l1 ih =>
    cases e with
    | named o t =>
      rw [List.cons_append, exec, exec]
      cases parseOption o t st with
      | none => rfl
      | some st' => exact ih _ _
    | place w =>
      rw [List.cons_append, exec, exec]
      cases consume opts w next st with
      | none => rfl
      | some p => exact ih _ _

/-- The events of an item. -/
def events : Item → List Ev
  | .pos w => [.place w]
  | i => i.named.map fun p => .named p.1 p.2

section Steps
variable {opts : List Opt} {positional : List Str} (hT : TableOk opts positional)
include hT

theorem shorts_flags {os : List Opt} (h : ∀ o ∈ os, o ∈ opts ∧ o.ty = .bool) (tl : Str) (next : List Str) (st : St) :
    shorts opts (os.map Opt.short ++ tl) st =
      (exec opts (os.map fun o => .named o []) next st).bind fun p => shorts opts tl p.2 := by
  induction os generalizing st with
  | nil => rfl
  | cons o os ih =>
    obtain ⟨h1, h2⟩ := h o (List.mem_cons_self ..)
    rw [List.map_cons, List.cons_append, shorts, find_short hT h1, List.map_cons, exec]
    simp only [h2, if_true]
    cases parseOption o [] st with
    | none => rfl
    | some st' => exact ih (fun o' ho' => h o' (List.mem_cons_of_mem _ ho')) st'

omit hT in
theorem exec_named_next (l : List (Opt × Str)) (next next' : List Str) (st : St) :
    exec opts (l.map fun p => .named p.1 p.2) next st =
      ((exec opts (l.map fun p => .named p.1 p.2) next' st).map fun p => (next, p.2)) := by
  induction l generalizing st with
  | nil => rfl
  | cons p l ih =>
    rw [List.map_cons, exec, exec]
    cases parseOption p.1 p.2 st with
    | none => rfl
    | some st' => exact ih _

/-- One item. -/
theorem parse_item {i : Item} (hi : i.Ok opts) (ws next : List Str) (st : St) :
    parse opts (i.words ++ ws) next st =
      (exec opts (events i) next st).bind fun p => parse opts ws p.1 p.2 := by
  cases i with
  | pos w =>
    have hw : w ≠ ['-', '-'] := by rintro rfl; exact hi rfl
    rw [Item.words, List.cons_append, List.nil_append, parse, if_neg hw, classify_other hi, events, exec]
    cases consume opts w next st with
    | none => rfl
    | some p => rfl
  | flags os =>
    obtain ⟨h0, h⟩ := hi
    have hal : ∀ c ∈ os.map Opt.short, isAlnum c = true := by
      intro c hc
      obtain ⟨o, ho, rfl⟩ := List.mem_map.1 hc
      exact hT.letter o (h o ho).1
    have hne : ('-' :: os.map Opt.short) ≠ ['-', '-'] := by
      intro he
      injection he with _ he
      rw [he] at hal
      exact absurd (hal '-' (List.mem_cons_self ..)) (by decide)
    have hs := shorts_flags hT h [] next st
    rw [List.append_nil] at hs
    rw [Item.words, List.cons_append, List.nil_append, parse, if_neg hne,
      classify_short (by simpa using h0) hal]
    simp only [hs]
    have he : events (.flags os) = os.map fun o => Ev.named o [] := by
      simp [events, Item.named, Function.comp_def]
    rw [he]
    have hn := exec_named_next (opts := opts) (os.map fun o => (o, [])) next next st
    rw [List.map_map] at hn
    simp only [Function.comp_def] at hn
    cases hx : exec opts (os.map fun o => Ev.named o []) next st with
    | none => rfl
    | some p =>
      rw [hx] at hn
      simp only [Option.map_some, Option.some.injEq] at hn
      simp only [Option.bind_some, shorts, Option.map_some]
      rw [hn]
  | short os o v =>
    obtain ⟨h, ho, hb⟩ := hi
    have hal : ∀ c ∈ os.map Opt.short ++ [o.short], isAlnum c = true := by
      intro c hc
      rcases List.mem_append.1 hc with hc | hc
      · obtain ⟨o, ho, rfl⟩ := List.mem_map.1 hc
        exact hT.letter o (h o ho).1
      · rw [List.mem_singleton.1 hc]
        exact hT.letter o ho
    have hne : ('-' :: (os.map Opt.short ++ [o.short])) ≠ ['-', '-'] := by
      intro he
      injection he with _ he
      rw [he] at hal
      exact absurd (hal '-' (List.mem_cons_self ..)) (by decide)
    have hs := shorts_flags hT h [o.short] next st
    have hlast : ∀ st', shorts opts [o.short] st' = some (st', some o) := by
      intro st'
      rw [shorts, find_short hT ho]
      simp only [if_neg hb, if_true]
    rw [Item.words, List.cons_append, List.cons_append, List.nil_append, parse, if_neg hne,
      classify_short (by simp) hal]
    simp only [hs]
    have he : events (.short os o v) = (os.map fun o => Ev.named o []) ++ [.named o v] := by
      simp [events, Item.named, Function.comp_def]
    have hn := exec_named_next (opts := opts) (os.map fun o => (o, [])) next next st
    rw [List.map_map] at hn
    simp only [Function.comp_def] at hn
    rw [he, exec_append]
    cases hx : exec opts (os.map fun o => Ev.named o []) next st with
    | none => rfl
    | some p =>
      rw [hx] at hn
      simp only [Option.map_some, Option.some.injEq] at hn
      simp only [Option.bind_some, hlast, Option.map_some, exec]
      cases parseOption o v p.2 with
      | none => rfl
      | some st' =>
        rw [hn]
        rfl
  | longFlag o =>
    obtain ⟨ho, hb⟩ := hi
    obtain ⟨a, b, l, e, ha, hl⟩ := hT.name o ho
    rw [e] at hl
    have hfind := find_long hT ho
    rw [e] at hfind
    rw [Item.words, List.cons_append, List.nil_append, parse, e, if_neg (by simp), classify_long ha hl]
    simp only [long, hfind, ne_eq, not_true, if_false, if_pos hb]
    rw [show events (.longFlag o) = [.named o []] from rfl, exec]
    cases parseOption o [] st with
    | none => rfl
    | some st' => rfl
  | long o v =>
    obtain ⟨ho, hb⟩ := hi
    obtain ⟨a, b, l, e, ha, hl⟩ := hT.name o ho
    rw [e] at hl
    have hfind := find_long hT ho
    rw [e] at hfind
    rw [Item.words, List.cons_append, List.cons_append, List.nil_append, parse, e, if_neg (by simp),
      classify_long ha hl]
    simp only [Cli.long, hfind, ne_eq, not_true, if_false, if_neg hb, Option.map_some]
    rw [show events (.long o v) = [.named o v] from rfl, exec]
    cases parseOption o v st with
    | none => rfl
    | some st' => rfl
  | longEq o v =>
    obtain ⟨ho, hb, hv, hn, hr⟩ := hi
    obtain ⟨a, b, l, e, ha, hl⟩ := hT.name o ho
    rw [e] at hl
    have hfind := find_long hT ho
    rw [e] at hfind
    rw [Item.words, List.cons_append, List.nil_append, parse, e, if_neg (by simp), classify_longEq ha hl hn hr]
    simp only [Cli.long, hfind, ne_eq, hv, not_false_eq_true, if_true, if_neg hb]
    rw [show events (.longEq o v) = [.named o v] from rfl, exec]
    cases parseOption o v st with
    | none => rfl
    | some st' => rfl

/-- Items. -/
theorem parse_items {items : List Item} (hi : ∀ i ∈ items, i.Ok opts) (ws next : List Str) (st : St) :
    parse opts (items.flatMap Item.words ++ ws) next st =
      (exec opts (items.flatMap events) next st).bind fun p => parse opts ws p.1 p.2 := by
  induction items generalizing next st with
  | nil => rfl
  | cons i items ih =>
    rw [List.flatMap_cons, List.flatMap_cons, List.append_assoc, parse_item hT (hi i (List.mem_cons_self ..)),
      exec_append, Option.bind_assoc]
    congr 1
    funext p
    exact ih (fun j hj => hi j (List.mem_cons_of_mem _ hj)) _ _

omit hT in
theorem remaining_exec (rest next : List Str) (st : St) :
    remaining opts rest next st = (exec opts (rest.map .place) next st).map Prod.snd := by
  induction rest generalizing next st with
  | nil => rfl
  | cons w rest ih =>
    rw [remaining, List.map_cons, exec]
    cases consume opts w next st with
    | none => rfl
    | some p => exact ih _ _

/-- A whole command line. -/
theorem parse_render {items : List Item} (hi : ∀ i ∈ items, i.Ok opts) (rest next : List Str) (st : St) :
    parse opts (render items rest) next st =
      (exec opts (items.flatMap events ++ rest.map .place) next st).map Prod.snd := by
  rw [render, parse_items hT hi, exec_append]
  cases exec opts (items.flatMap events) next st with
  | none => rfl
  | some p =>
    simp only [Option.bind_some]
    split
    next h => subst h; rfl
    next h =>
      rw [parse, if_pos rfl]
      exact remaining_exec ..

end Steps

/-! ### What the events do -/

/-- Arguments given to `o` by name. -/
def textsE (o : Opt) (es : List Ev) : List Str :=
  es.filterMap fun e => match e with
    | .named o' t => if o' = o then some t else none
    | .place _ => none

/-- Positional words. -/
def placesE (es : List Ev) : List Str :=
  es.filterMap fun e => match e with
    | .named _ _ => none
    | .place w => some w

theorem textsE_append (o : Opt) (l1 l2 : List Ev) : textsE o (l1 ++ l2) = textsE o l1 ++ textsE o l2 :=
  List.filterMap_append
theorem placesE_append (l1 l2 : List Ev) : placesE (l1 ++ l2) = placesE l1 ++ placesE l2 :=
  List.filterMap_append

theorem textsE_events (o : Opt) (i : Item) :
    textsE o (events i) = i.named.filterMap fun p => if p.1 = o then some p.2 else none := by
  have h : ∀ l : List (Opt × Str), textsE o (l.map fun p => .named p.1 p.2) =
      l.filterMap fun p => if p.1 = o then some p.2 else none := by
    intro l
    unfold textsE
    rw [List.filterMap_map]
    rfl
  cases i with
  | pos w => rfl
  | flags os => exact h _
  | short os o v => exact h _
  | longFlag o => exact h _
  | long o v => exact h _
  | longEq o v => exact h _

theorem placesE_named (l : List (Opt × Str)) : placesE (l.map fun p => .named p.1 p.2) = [] := by
  unfold placesE
  rw [List.filterMap_map]
  exact List.filterMap_eq_nil_iff.2 fun _ _ => rfl

theorem placesE_events (i : Item) : placesE (events i) = i.placed := by
  cases i with
  | pos w => rfl
  | flags os => exact placesE_named _
  | short os o v => exact placesE_named _
  | longFlag o => exact placesE_named _
  | long o v => exact placesE_named _
  | longEq o v => exact placesE_named _

theorem textsE_items (o : Opt) (items : List Item) (rest : List Str) :
    textsE o (items.flatMap events ++ rest.map .place) = texts o items := by
  have h1 : textsE o (rest.map .place) = [] := by
    unfold textsE
    rw [List.filterMap_map]
    exact List.filterMap_eq_nil_iff.2 fun _ _ => rfl
  rw [textsE_append, h1, List.append_nil]
  unfold texts
  induction items with
  | nil => rfl
  | cons i items ih =>
    rw [List.flatMap_cons, List.flatMap_cons, textsE_append, textsE_events, ih, List.filterMap_append]

theorem placesE_items (items : List Item) (rest : List Str) :
    placesE (items.flatMap events ++ rest.map .place) = places items rest := by
  have h1 : placesE (rest.map .place) = rest := by
    unfold placesE
    rw [List.filterMap_map]
    exact List.filterMap_some
  rw [placesE_append, h1]
  unfold places
  congr 1
  induction items with
  | nil => rfl
  | cons i items ih => rw [List.flatMap_cons, List.flatMap_cons, placesE_append, placesE_events, ih]

/-- What `parseOption` does to a legible argument. -/
def setOpt (o : Opt) (v : Val) (st : St) : St :=
  { val := fun x => if x = o.short then v else st.val x
    count := fun x => if x = o.short then st.count x + 1 else st.count x }

theorem parseOption_reads {o : Opt} {t : Str} {v : Val} (h : Reads o.ty t v) (st : St) :
    parseOption o t st = some (setOpt o v st) := by
  rw [parseOption, parseValue_of_reads h]
  rfl

/-- The first positional parameter that is still to be given takes the word. -/
theorem consume_next {opts : List Opt} {st : St} (un : Str → Option Opt) (w : Str) (next : List Str)
    (hfind : ∀ p ∈ next, ∃ o, find opts p = some o ∧
      (un p = none ∧ st.count o.short ≠ 0 ∨ un p = some o ∧ st.count o.short = 0)) :
    (next.filterMap un = [] ∧ consume opts w next st = some ([], st)) ∨
    ∃ o pre ps, next = pre ++ ps ∧ next.filterMap un = o :: ps.filterMap un ∧
      consume opts w next st = (parseOption o w st).map fun st' => (ps, st') := by
  induction next with
  | nil => exact .inl ⟨rfl, rfl⟩
  | cons p ps ih =>
    obtain ⟨o, h1, h2⟩ := hfind p (List.mem_cons_self ..)
    have ih := ih fun q hq => hfind q (List.mem_cons_of_mem _ hq)
    rcases h2 with ⟨h2, h3⟩ | ⟨h2, h3⟩
    · have hc : consume opts w (p :: ps) st = consume opts w ps st := by
        rw [consume, h1]; exact if_neg h3
      have hf : (p :: ps).filterMap un = ps.filterMap un := List.filterMap_cons_none h2
      rw [hc, hf]
      rcases ih with ih | ⟨o', pre, ps', e1, e2, e3⟩
      · exact .inl ih
      · exact .inr ⟨o', p :: pre, ps', by rw [e1]; rfl, e2, e3⟩
    · refine .inr ⟨o, [p], ps, rfl, List.filterMap_cons_some h2, ?_⟩
      rw [consume, h1]
      simp only [h3, if_true]
      cases parseOption o w st with
      | none => rfl
      | some st' => rfl

section Inv
variable {opts : List Opt} {positional : List Str}

/-- What is known when the events `es` have been dealt with; `U` are the positional parameters that are never
named, `st0` is the state at the start. -/
structure Inv (opts : List Opt) (positional : List Str) (un : Str → Option Opt) (st0 : St) (es : List Ev)
    (next : List Str) (st : St) : Prop where
  byName : ∀ o ∈ opts, ∀ t, (textsE o es).getLast? = some t →
    Reads o.ty t (st.val o.short) ∧ st.count o.short = (textsE o es).length
  byPlace : ∀ (i : Nat) (o : Opt) (w : Str), (positional.filterMap un)[i]? = some o → (placesE es)[i]? = some w →
    Reads o.ty w (st.val o.short) ∧ st.count o.short = 1
  keeps : ∀ x, (∀ o ∈ opts, o.short = x → textsE o es = [] ∧
      ∀ i : Nat, (positional.filterMap un)[i]? = some o → (placesE es)[i]? = none) →
    st.val x = st0.val x ∧ st.count x = 0
  suffix : ∃ pre, positional = pre ++ next
  todo : next.filterMap un = (positional.filterMap un).drop (placesE es).length

theorem exec_inv (hT : TableOk opts positional) (st0 : St) (all : List Ev) (un : Str → Option Opt)
    (hun : ∀ p, un p = opts.find? fun o => o.long = p && (textsE o all).isEmpty)
    (hin : ∀ o t, Ev.named o t ∈ all → o ∈ opts ∧ ∃ v, Reads o.ty t v)
    (hpl : ∀ (i : Nat) (o : Opt) (w : Str), (positional.filterMap un)[i]? = some o → (placesE all)[i]? = some w →
      ∃ v, Reads o.ty w v)
    (hfirst : all.Pairwise fun a b => ∀ w o t, a = .place w → b = .named o t → o.long ∉ positional)
    (todo done : List Ev) (hall : all = done ++ todo) (next : List Str) (st : St)
    (hinv : Inv opts positional un st0 done next st) :
    ∃ next' st', exec opts todo next st = some (next', st') ∧ Inv opts positional un st0 all next' st' := by
  -- facts on `un`
  have un_some : ∀ p o, un p = some o → o ∈ opts ∧ o.long = p ∧ textsE o all = [] := by
    intro p o h
    rw [hun] at h
    have h2 := List.find?_some h
    simp only [Bool.and_eq_true, decide_eq_true_eq, List.isEmpty_iff] at h2
    exact ⟨List.mem_of_find?_eq_some h, h2.1, h2.2⟩
  have un_of : ∀ o ∈ opts, textsE o all = [] → un o.long = some o := by
    intro o ho h
    rw [hun]
    cases hf : opts.find? fun o' => o'.long = o.long && (textsE o' all).isEmpty with
    | none =>
      rw [List.find?_eq_none] at hf
      exact absurd (by simp [h]) (hf o ho)
    | some o' =>
      have h2 := List.find?_some hf
      simp only [Bool.and_eq_true, decide_eq_true_eq] at h2
      rw [List.inj_on_of_nodup_map hT.names (List.mem_of_find?_eq_some hf) ho h2.1]
  have U_mem : ∀ (i : Nat) o, (positional.filterMap un)[i]? = some o → o ∈ opts ∧ textsE o all = [] := by
    intro i o h
    obtain ⟨p, _, hp⟩ := List.mem_filterMap.1 (List.mem_of_getElem? h)
    exact ⟨(un_some p o hp).1, (un_some p o hp).2.2⟩
  have U_nodup : (positional.filterMap un).Nodup := by
    refine hT.order.filterMap fun p p' o h1 h2 => ?_
    rw [← (un_some p o h1).2.1, ← (un_some p' o h2).2.1]
  have short_inj : ∀ o ∈ opts, ∀ o' ∈ opts, o.short = o'.short → o = o' :=
    fun o ho o' ho' h => List.inj_on_of_nodup_map hT.letters ho ho' h
  induction todo generalizing done next st with
  | nil =>
    rw [List.append_nil] at hall
    subst hall
    exact ⟨next, st, rfl, hinv⟩
  | cons e todo ih =>
    have hall' : all = (done ++ [e]) ++ todo := by rw [hall, List.append_assoc]; rfl
    have hpre : ∀ o, textsE o all = [] → textsE o done = [] := by
      intro o h
      rw [hall, textsE_append] at h
      exact (List.append_eq_nil_iff.1 h).1
    cases e with
    | named o t =>
      obtain ⟨ho, v, hv⟩ := hin o t (by rw [hall]; exact List.mem_append_right _ (List.mem_cons_self ..))
      rw [exec, parseOption_reads hv]
      have ht : textsE o (done ++ [.named o t]) = textsE o done ++ [t] := by
        rw [textsE_append]; simp [textsE]
      have ht' : ∀ o', o' ≠ o → textsE o' (done ++ [.named o t]) = textsE o' done := by
        intro o' h
        rw [textsE_append]; simp [textsE, Ne.symm h]
      have hp : placesE (done ++ [.named o t]) = placesE done := by
        rw [placesE_append]; simp [placesE]
      have hnot : textsE o all ≠ [] := by
        rw [hall', textsE_append, ht]; simp
      refine ih (done ++ [.named o t]) hall' next (setOpt o v st) ⟨?_, ?_, ?_, hinv.suffix, ?_⟩
      · intro o' ho' t' h'
        by_cases he : o' = o
        · subst he
          rw [ht, List.getLast?_append] at h'
          simp only [List.getLast?_singleton, Option.some_or, Option.some.injEq] at h'
          subst h'
          rw [ht]
          refine ⟨by simpa [setOpt] using hv, ?_⟩
          simp only [setOpt, if_true, List.length_append, List.length_singleton]
          congr 1
          cases hl : (textsE o' done).getLast? with
          | some t'' => exact (hinv.byName o' ho' t'' hl).2
          | none =>
            rw [List.getLast?_eq_none_iff] at hl
            rw [hl]
            refine (hinv.keeps o'.short fun o'' ho'' hs => ?_).2
            have := short_inj o'' ho'' o' ho' hs
            subst this
            exact ⟨hl, fun i hi => absurd (U_mem i _ hi).2 hnot⟩
        · have hs : o'.short ≠ o.short := fun h => he (short_inj o' ho' o ho h)
          rw [ht' o' he] at h' ⊢
          simpa [setOpt, hs] using hinv.byName o' ho' t' h'
      · intro i o' w h1 h2
        have hm := U_mem i o' h1
        have he : o' ≠ o := fun h => hnot (h ▸ hm.2)
        have hs : o'.short ≠ o.short := fun h => he (short_inj o' hm.1 o ho h)
        rw [hp] at h2
        simpa [setOpt, hs] using hinv.byPlace i o' w h1 h2
      · intro x hx
        have hxs : x ≠ o.short := by
          rintro rfl
          have := (hx o ho rfl).1
          rw [ht] at this
          simp at this
        have := hinv.keeps x fun o' ho' hs => by
          have hne : o' ≠ o := by rintro rfl; exact hxs hs.symm
          have h3 := hx o' ho' hs
          rw [ht' o' hne, hp] at h3
          exact h3
        simpa [setOpt, hxs] using this
      · rw [hp]; exact hinv.todo
    | place w =>
      have ht' : ∀ o', textsE o' (done ++ [.place w]) = textsE o' done := by
        intro o'
        rw [textsE_append]; simp [textsE]
      have hp : placesE (done ++ [.place w]) = placesE done ++ [w] := by
        rw [placesE_append]; simp [placesE]
      -- parameters that are named have been named
      have hcond : ∀ p ∈ next, ∃ o, find opts p = some o ∧
          (un p = none ∧ st.count o.short ≠ 0 ∨ un p = some o ∧ st.count o.short = 0) := by
        intro p hpn
        obtain ⟨pre, hpre'⟩ := hinv.suffix
        have hpos : p ∈ positional := by rw [hpre']; exact List.mem_append_right _ hpn
        obtain ⟨o, ho, rfl⟩ := hT.places p hpos
        refine ⟨o, find_long hT ho, ?_⟩
        by_cases hz : textsE o all = []
        · refine .inr ⟨un_of o ho hz, (hinv.keeps o.short fun o' ho' hs => ?_).2⟩
          have := short_inj o' ho' o ho hs
          subst this
          refine ⟨hpre o' hz, fun i hi => ?_⟩
          -- `o'` is still to come
          have hmem : o' ∈ (positional.filterMap un).drop (placesE done).length := by
            rw [← hinv.todo]
            exact List.mem_filterMap.2 ⟨_, hpn, un_of o' ho hz⟩
          obtain ⟨j, hj⟩ := List.getElem?_of_mem hmem
          rw [List.getElem?_drop] at hj
          have hij := (List.getElem?_inj (by
            rw [List.getElem?_eq_some_iff] at hi; exact hi.1) U_nodup).1 (hi.trans hj.symm)
          rw [List.getElem?_eq_none_iff]
          omega
        · refine .inl ⟨?_, ?_⟩
          · cases hu : un o.long with
            | none => rfl
            | some o' =>
              obtain ⟨h1, h2, h3⟩ := un_some _ _ hu
              rw [List.inj_on_of_nodup_map hT.names h1 ho h2] at h3
              exact absurd h3 hz
          · -- all its names are in `done`
            have hd : textsE o done ≠ [] := by
              intro hd
              rw [hall, textsE_append, hd, List.nil_append] at hz
              obtain ⟨t, htm⟩ := List.exists_mem_of_ne_nil _ hz
              obtain ⟨e, he1, he2⟩ := List.mem_filterMap.1 htm
              cases e with
              | place w' => cases he2
              | named o' t' =>
                dsimp only at he2
                split at he2
                next heq =>
                  subst heq
                  rw [hall] at hfirst
                  have h5 := (List.pairwise_append.1 hfirst).2.1
                  rcases List.mem_cons.1 he1 with h6 | h6
                  · cases h6
                  · exact (List.pairwise_cons.1 h5).1 _ h6 w o' t' rfl rfl hpos
                next => cases he2
            cases hl : (textsE o done).getLast? with
            | none => exact absurd (List.getLast?_eq_none_iff.1 hl) hd
            | some t'' =>
              rw [(hinv.byName o ho t'' hl).2]
              exact fun h => hd (List.length_eq_zero_iff.1 h)
      rcases consume_next un w next hcond with ⟨h1, h2⟩ | ⟨o, pre, ps, h1, h2, h3⟩
      · rw [exec, h2]
        have hU : (positional.filterMap un).drop (placesE done).length = [] := by rw [← hinv.todo, h1]
        refine ih (done ++ [.place w]) hall' [] st ⟨?_, ?_, ?_, ⟨positional, by simp⟩, ?_⟩
        · intro o' ho' t' h'
          rw [ht'] at h' ⊢
          exact hinv.byName o' ho' t' h'
        · intro i o' w' hi hw
          have hlt : i < (placesE done).length := by
            have := (List.getElem?_eq_some_iff.1 hi).1
            rw [List.drop_eq_nil_iff] at hU
            omega
          rw [hp, List.getElem?_append_left hlt] at hw
          exact hinv.byPlace i o' w' hi hw
        · intro x hx
          refine hinv.keeps x fun o' ho' hs => ?_
          obtain ⟨h4, h5⟩ := hx o' ho' hs
          rw [ht'] at h4
          refine ⟨h4, fun i hi => ?_⟩
          have := h5 i hi
          rw [hp, List.getElem?_eq_none_iff, List.length_append] at this
          rw [List.getElem?_eq_none_iff]
          have hU' := List.drop_eq_nil_iff.1 hU
          have := (List.getElem?_eq_some_iff.1 hi).1
          omega
        · rw [hp, List.length_append]
          rw [List.drop_eq_nil_iff] at hU
          rw [List.drop_eq_nil_iff.2 (by omega)]
          rfl
      · have hU : (positional.filterMap un)[(placesE done).length]? = some o := by
          have : ((positional.filterMap un).drop (placesE done).length)[0]? = some o := by
            rw [← hinv.todo, h2]; rfl
          simpa using this
        have hm := U_mem _ _ hU
        obtain ⟨v, hv⟩ := hpl _ o w hU (by
          rw [hall', placesE_append, hp, List.append_assoc,
            List.getElem?_append_right (le_refl _)]
          simp)
        rw [exec, h3, parseOption_reads hv]
        refine ih (done ++ [.place w]) hall' ps (setOpt o v st) ⟨?_, ?_, ?_, ?_, ?_⟩
        · intro o' ho' t' h'
          rw [ht'] at h' ⊢
          have he : o' ≠ o := by
            rintro rfl
            rw [hpre o' hm.2] at h'
            cases h'
          have hs : o'.short ≠ o.short := fun h => he (short_inj o' ho' o hm.1 h)
          simpa [setOpt, hs] using hinv.byName o' ho' t' h'
        · intro i o' w' hi hw
          rw [hp] at hw
          by_cases hlt : i < (placesE done).length
          · rw [List.getElem?_append_left hlt] at hw
            have he : o' ≠ o := by
              rintro rfl
              have := (List.getElem?_inj (List.getElem?_eq_some_iff.1 hi).1 U_nodup).1 (hi.trans hU.symm)
              omega
            have hs : o'.short ≠ o.short := fun h => he (short_inj o' (U_mem i o' hi).1 o hm.1 h)
            simpa [setOpt, hs] using hinv.byPlace i o' w' hi hw
          · have hi2 := (List.getElem?_eq_some_iff.1 hw).1
            rw [List.length_append, List.length_singleton] at hi2
            have hie : i = (placesE done).length := by omega
            subst hie
            rw [hU] at hi
            cases hi
            rw [List.getElem?_append_right (le_refl _)] at hw
            simp only [Nat.sub_self, List.getElem?_cons_zero, Option.some.injEq] at hw
            subst hw
            refine ⟨by simpa [setOpt] using hv, ?_⟩
            simp only [setOpt, if_true]
            have := (hinv.keeps o.short fun o' ho' hs => by
              have := short_inj o' ho' o hm.1 hs
              subst this
              refine ⟨hpre o' hm.2, fun i hi => ?_⟩
              have hij := (List.getElem?_inj (List.getElem?_eq_some_iff.1 hi).1 U_nodup).1 (hi.trans hU.symm)
              rw [List.getElem?_eq_none_iff]
              omega).2
            omega
        · intro x hx
          have hxs : x ≠ o.short := by
            rintro rfl
            have := (hx o hm.1 rfl).2 _ hU
            rw [hp] at this
            simp at this
          have := hinv.keeps x fun o' ho' hs => by
            obtain ⟨h4, h5⟩ := hx o' ho' hs
            rw [ht'] at h4
            refine ⟨h4, fun i hi => ?_⟩
            have := h5 i hi
            rw [hp, List.getElem?_eq_none_iff, List.length_append] at this
            rw [List.getElem?_eq_none_iff]
            omega
          simpa [setOpt, hxs] using this
        · obtain ⟨pre', hpre'⟩ := hinv.suffix
          exact ⟨pre' ++ pre, by rw [hpre', h1, List.append_assoc]⟩
        · have h5 := hinv.todo
          rw [h2] at h5
          rw [hp, List.length_append, List.length_singleton]
          have h6 := congrArg List.tail h5
          rw [List.tail_cons, List.tail_drop] at h6
          exact h6

end Inv

end Knor.Cli
