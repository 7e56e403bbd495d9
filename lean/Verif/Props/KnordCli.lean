import Verif.Spec.KnordCli
import Verif.Props.Cli
import Verif.Props.DistrPrunedDriver

/-!
# C100: `knord` does what its command line says
-/

namespace Knor.Cli

open Knor Knor.Io Knor.Spec.KnordCli

variable {R S B : Type _}

/-! ### `getopt` -/

theorem lookup_arg {x : Char} (h : x ∈ withArg) : x ≠ ':' ∧ x ≠ ';' ∧ lookup x optstring = some true := by
  simp only [withArg, List.mem_cons, List.not_mem_nil, or_false] at h
  rcases h with rfl | rfl | rfl | rfl | rfl | rfl | rfl | rfl <;> decide

theorem lookup_unknown {x : Char} (h : x ∉ withArg) (hP : x ≠ 'P') (hc : x ≠ ':') : lookup x optstring = none := by
  simp only [withArg, List.mem_cons, List.not_mem_nil, or_false, not_or] at h
  have : optstring = ['l', ':', 'i', ':', 't', ':', 'T', ':', 'd', ':', 'C', ':', 'P', 'N', ':', 'o', ':'] := by decide
  rw [this]
  simp only [lookup]
  obtain ⟨a, b, c, d, e, f, g, i⟩ := h
  simp [Ne.symm a, Ne.symm b, Ne.symm c, Ne.symm d, Ne.symm e, Ne.symm f, Ne.symm g, Ne.symm i, Ne.symm hP, Ne.symm hc]

/-- What `getopt` returns for an option that is given. -/
def ev (p : Char × Str) : Got := .opt p.1 p.2

theorem letters_P (xs : Str) : letters ('P' :: xs) = (.opt 'P' [] :: (letters xs).1, (letters xs).2) := by
  have : lookup 'P' optstring = some false := by decide
  rw [letters, if_neg (by decide), this]

/-- The events of `-P` before other letters. -/
def preEv (p : Bool) : List Got := if p then [.opt 'P' []] else []

theorem letters_pre (p : Bool) (xs : Str) : letters (pre p ++ xs) = (preEv p ++ (letters xs).1, (letters xs).2) := by
  cases p with
  | true => exact letters_P xs
  | false => rfl

theorem getopt_word {x : Char} {xs : Str} {ws : List Str} (h : ¬ (x = '-' ∧ xs = [])) :
    getopt (('-' :: x :: xs) :: ws) = match (letters (x :: xs)).2, ws with
      | none, ws => (letters (x :: xs)).1 ++ getopt ws
      | some _, [] => (letters (x :: xs)).1 ++ [.bad]
      | some y, a :: ws => (letters (x :: xs)).1 ++ .opt y a :: getopt ws := by
  have h' : ¬ ('-' :: x :: xs = ['-', '-']) := by
    intro e
    injection e with _ e
    injection e with e1 e2
    exact h ⟨e1, e2⟩
  cases hl : (letters (x :: xs)).2 with
  | none => simp only [getopt, hl, if_neg h']
  | some y =>
    cases ws with
    | nil => rw [getopt.eq_def]; simp only [hl, if_neg h']
    | cons a ws => rw [getopt.eq_def]; simp only [hl, if_neg h']

theorem getopt_stray {w : Str} (h : w.head? ≠ some '-' ∨ w = ['-']) (ws : List Str) : getopt (w :: ws) = getopt ws := by
  have h1 : w ≠ ['-', '-'] := by
    rintro rfl
    rcases h with h | h
    · exact h rfl
    · cases h
  have h2 : ∀ x xs, w = '-' :: x :: xs → False := by
    rintro x xs rfl
    rcases h with h | h
    · exact h rfl
    · cases h
  rw [getopt, if_neg h1]
  exact h2

/-- A dash and letters. -/
theorem getopt_dash (p : Bool) {x : Char} (xs : Str) (ws : List Str) (h : ¬ (p = false ∧ x = '-' ∧ xs = [])) :
    getopt (('-' :: (pre p ++ x :: xs)) :: ws) = match (letters (x :: xs)).2, ws with
      | none, ws => preEv p ++ (letters (x :: xs)).1 ++ getopt ws
      | some _, [] => preEv p ++ (letters (x :: xs)).1 ++ [.bad]
      | some y, a :: ws => preEv p ++ (letters (x :: xs)).1 ++ .opt y a :: getopt ws := by
  have hl := letters_pre p (x :: xs)
  cases p with
  | false =>
    have := getopt_word (x := x) (xs := xs) (ws := ws) (fun e => h ⟨rfl, e⟩)
    simpa [preEv, pre] using this
  | true =>
    have := getopt_word (x := 'P') (xs := x :: xs) (ws := ws) (by simp)
    rw [show 'P' :: x :: xs = pre true ++ x :: xs from rfl, hl] at this
    exact this

theorem letters_apart {x : Char} (hx : x ∈ withArg) : letters [x] = ([], some x) := by
  obtain ⟨h1, h2, h3⟩ := lookup_arg hx
  rw [letters, if_neg (by simp [h1, h2]), h3]
  rfl

theorem letters_joined {x : Char} (hx : x ∈ withArg) {v : Str} (hv : v ≠ []) :
    letters (x :: v) = ([.opt x v], none) := by
  obtain ⟨h1, h2, h3⟩ := lookup_arg hx
  rw [letters, if_neg (by simp [h1, h2]), h3]
  simp [hv]

theorem dash_arg {p : Bool} {x : Char} {xs : Str} (hx : x ∈ withArg) : ¬ (p = false ∧ x = '-' ∧ xs = []) := by
  rintro ⟨-, rfl, -⟩
  revert hx
  decide

theorem getopt_item {i : Item} (hi : i.Ok) (ws : List Str) :
    getopt (i.words ++ ws) = i.given.map ev ++ getopt ws := by
  cases i with
  | prune => exact getopt_dash false (x := 'P') [] ws (by decide)
  | apart p x v =>
    have hx : x ∈ withArg := hi
    have := getopt_dash p (x := x) [] (v :: ws) (dash_arg hx)
    rw [letters_apart hx] at this
    change getopt (('-' :: (pre p ++ [x])) :: v :: ws) = _
    rw [this]
    cases p <;> rfl
  | joined p x v =>
    obtain ⟨hx, hv⟩ : x ∈ withArg ∧ v ≠ [] := hi
    have := getopt_dash p (x := x) v ws (dash_arg hx)
    rw [letters_joined hx hv] at this
    change getopt (('-' :: (pre p ++ x :: v)) :: ws) = _
    rw [this]
    cases p <;> rfl
  | stray w => exact getopt_stray hi ws

theorem getopt_items {items : List Item} (h : ∀ i ∈ items, i.Ok) (ws : List Str) :
    getopt (items.flatMap Item.words ++ ws) = (given items).map ev ++ getopt ws := by
  induction items with
  | nil => rfl
  | cons i l ih =>
    rw [List.flatMap_cons, List.append_assoc, getopt_item (h i (List.mem_cons_self ..)),
      ih (fun j hj => h j (List.mem_cons_of_mem _ hj)), given, given, List.flatMap_cons, List.map_append,
      List.append_assoc]

theorem dec_head (k : Nat) : (Nat.toDigits 10 k).head? ≠ some '-' := by
  obtain ⟨h1, h2, -⟩ := foldl_toDigits k
  cases h : Nat.toDigits 10 k with
  | nil => exact absurd h h2
  | cons c r =>
    rw [h] at h1
    have := List.all_eq_true.1 h1 c (List.mem_cons_self ..)
    intro e
    injection e with e
    rw [e] at this
    revert this
    decide

/-! ### The loop -/

theorem handleAll_append (env : JobEnv R B) (a b : List Got) (v : Vars R B) :
    handleAll env (a ++ b) v = match handleAll env a v with
      | .done v' => handleAll env b v'
      | o => o := by
  induction a generalizing v with
  | nil => rfl
  | cons g a ih =>
    rw [List.cons_append, handleAll, handleAll]
    cases handle env g v with
    | done v' => exact ih v'
    | help => rfl
    | usage => rfl
    | badOption => rfl
    | fault e => rfl

/-- The arguments of one option. -/
def tx (x : Char) (l : List (Char × Str)) : List Str := l.filterMap fun p => if p.1 = x then some p.2 else none

theorem tx_cons_self (x : Char) (w : Str) (l : List (Char × Str)) : tx x ((x, w) :: l) = w :: tx x l := by
  simp [tx]

theorem tx_cons_ne {x y : Char} (h : y ≠ x) (w : Str) (l : List (Char × Str)) : tx x ((y, w) :: l) = tx x l := by
  simp [tx, h]

/-- A variable after the loop: `f` of the last argument, or unchanged. -/
def Upd {α : Type _} (ts : List Str) (f : Str → α → Prop) (a a' : α) : Prop :=
  (∀ w, ts.getLast? = some w → f w a') ∧ (ts = [] → a' = a)

theorem Upd.nil {α : Type _} {f : Str → α → Prop} (a : α) : Upd [] f a a :=
  ⟨fun w h => by simp at h, fun _ => rfl⟩

theorem Upd.cons {α : Type _} {f : Str → α → Prop} {t : List Str} {a a1 a' : α} {w : Str} (h : Upd t f a1 a')
    (hw : f w a1) : Upd (w :: t) f a a' := by
  refine ⟨fun u hu => ?_, fun e => by cases e⟩
  by_cases ht : t = []
  · subst ht
    rw [h.2 rfl]
    rw [List.getLast?_singleton] at hu
    rw [← Option.some.inj hu]
    exact hw
  · refine h.1 u ?_
    rw [List.getLast?_cons] at hu
    rw [List.getLast?_eq_getLast_of_ne_nil ht] at hu ⊢
    exact hu

/-- The options that decide where the centroids start. -/
def stx (files : Str → Option (List B)) (l : List (Char × Str)) : List (Driver.StartOpt B) :=
  l.filterMap fun p =>
    if p.1 = 't' then some (.init (String.ofList p.2)) else if p.1 = 'C' then some (.centers (files p.2)) else none

/-- The variables after the loop over the options of `l`. -/
structure After (env : JobEnv R B) (l : List (Char × Str)) (v v' : Vars R B) : Prop where
  dist : Upd (tx 'd' l) (fun w a => a = w) v.dist v'.dist
  iters : Upd (tx 'i' l) (fun w a => ∃ m, m < 2 ^ 32 ∧ w = Nat.toDigits 10 m ∧ a = m) v.iters v'.iters
  threads : Upd (tx 'T' l) (fun w a => ∃ m, m < 2 ^ 31 ∧ w = Nat.toDigits 10 m ∧ a = m) v.threads v'.threads
  tol : Upd (tx 'l' l) (fun w a => a = env.atof w) v.tol v'.tol
  outdir : Upd (tx 'o' l) (fun w a => a = w) v.outdir v'.outdir
  noPrune : v'.noPrune = true ↔ v.noPrune = true ∨ tx 'P' l ≠ []
  starts : Driver.startOptions (stx env.files l) (String.ofList v.init) v.centers =
    .ok (String.ofList v'.init, v'.centers)

theorem atoi_dec {n : Nat} (hn : n < 2 ^ 31) : atoi (Nat.toDigits 10 n) = .ok n := by
  have h1 := atol_dec (n := n) (by omega) [] (fun c h => by cases h)
  rw [List.append_nil] at h1
  obtain ⟨h2, h3, h4⟩ := foldl_toDigits n
  have htw : (Nat.toDigits 10 n).takeWhile Char.isDigit = Nat.toDigits 10 n := by
    rw [List.takeWhile_eq_self_iff]
    exact fun c hc => List.all_eq_true.1 h2 c hc
  cases hd : Nat.toDigits 10 n with
  | nil => exact absurd hd h3
  | cons c r =>
    have hc : c.isDigit = true := by
      rw [hd] at h2
      exact List.all_eq_true.1 h2 c (List.mem_cons_self ..)
    obtain ⟨c1, c2, c3, c4, c5, c6, c7, c8⟩ := isDigit_cases hc
    rw [hd] at htw h4
    have hm : atolSign (c :: r) = (false, c :: r) := by
      unfold atolSign
      split
      next h => injection h with h _; exact absurd h c7
      next h => injection h with h _; exact absurd h c8
      next => rfl
    unfold atoi
    dsimp only
    rw [List.dropWhile_cons_of_neg (by simp [isSpace, c1, c2, c3, c4, c5, c6]), hm]
    simp only [Bool.false_eq_true, if_false]
    rw [htw, h4, if_neg (by omega)]

/-- The arguments in `l` are legible. -/
structure Fine (files : Str → Option (List B)) (l : List (Char × Str)) : Prop where
  known : ∀ p ∈ l, p.1 ∈ withArg ∨ p.1 = 'P'
  iters : ∀ v ∈ tx 'i' l, ∃ m : Nat, m < 2 ^ 32 ∧ v = Nat.toDigits 10 m
  threads : ∀ v ∈ tx 'T' l, ∃ m : Nat, m < 2 ^ 31 ∧ v = Nat.toDigits 10 m
  nodes : ∀ v ∈ tx 'N' l, ∃ m : Nat, m < 2 ^ 31 ∧ v = Nat.toDigits 10 m
  files : ∀ v ∈ tx 'C' l, files v ≠ none

theorem mem_tx_cons {x : Char} {v : Str} {p : Char × Str} {l : List (Char × Str)} (h : v ∈ tx x l) :
    v ∈ tx x (p :: l) := by
  unfold tx at *
  rw [List.filterMap_cons]
  split
  · exact h
  · exact List.mem_cons_of_mem _ h

theorem Fine.tail {files : Str → Option (List B)} {p : Char × Str} {l : List (Char × Str)} (h : Fine files (p :: l)) :
    Fine files l :=
  ⟨fun q hq => h.known q (List.mem_cons_of_mem _ hq), fun v hv => h.iters v (mem_tx_cons hv),
    fun v hv => h.threads v (mem_tx_cons hv), fun v hv => h.nodes v (mem_tx_cons hv),
    fun v hv => h.files v (mem_tx_cons hv)⟩

theorem handleAll_ok (env : JobEnv R B) (l : List (Char × Str)) (hl : Fine env.files l) (v : Vars R B) :
    ∃ v', handleAll env (l.map ev) v = .done v' ∧ After env l v v' := by
  induction l generalizing v with
  | nil =>
    exact ⟨v, rfl, .nil _, .nil _, .nil _, .nil _, .nil _, by simp [tx], rfl⟩
  | cons p l ih =>
    obtain ⟨x, w⟩ := p
    have hkn := hl.known (x, w) (List.mem_cons_self ..)
    simp only [withArg, List.mem_cons, List.not_mem_nil, or_false] at hkn
    have step : ∀ v1, handle env (.opt x w) v = .done v1 →
        (∀ v', After env l v1 v' → After env ((x, w) :: l) v v') →
        ∃ v', handleAll env (((x, w) :: l).map ev) v = .done v' ∧ After env ((x, w) :: l) v v' := by
      intro v1 h1 h2
      obtain ⟨v', h3, h4⟩ := ih hl.tail v1
      refine ⟨v', ?_, h2 v' h4⟩
      rw [List.map_cons, handleAll]
      change (match handle env (.opt x w) v with | .done v' => handleAll env (l.map ev) v' | o => o) = _
      rw [h1]
      exact h3
    rcases hkn with (rfl | rfl | rfl | rfl | rfl | rfl | rfl | rfl) | rfl
    · -- l
      refine step { v with tol := env.atof w } rfl fun v' h => ?_
      obtain ⟨h1, h2, h3, h4, h5, h6, h7⟩ := h
      refine ⟨?_, ?_, ?_, ?_, ?_, ?_, ?_⟩
      · rw [tx_cons_ne (by decide)]; exact h1
      · rw [tx_cons_ne (by decide)]; exact h2
      · rw [tx_cons_ne (by decide)]; exact h3
      · rw [tx_cons_self]; exact h4.cons rfl
      · rw [tx_cons_ne (by decide)]; exact h5
      · rw [tx_cons_ne (by decide)]; exact h6
      · exact h7
    · -- i
      obtain ⟨m, hm, e⟩ := hl.iters w (by rw [tx_cons_self]; exact List.mem_cons_self ..)
      have ha : atol w = .ok m := by
        have := atol_dec (n := m) (by omega) [] (fun c h => by cases h)
        rw [List.append_nil] at this
        rw [e, this]
      refine step { v with iters := m } ?_ fun v' h => ?_
      · simp only [handle]
        rw [if_neg (by decide), if_pos trivial, ha]
        dsimp only
        rw [u32, Nat.mod_eq_of_lt (by omega)]
      obtain ⟨h1, h2, h3, h4, h5, h6, h7⟩ := h
      refine ⟨?_, ?_, ?_, ?_, ?_, ?_, ?_⟩
      · rw [tx_cons_ne (by decide)]; exact h1
      · rw [tx_cons_self]; exact h2.cons ⟨m, hm, e, rfl⟩
      · rw [tx_cons_ne (by decide)]; exact h3
      · rw [tx_cons_ne (by decide)]; exact h4
      · rw [tx_cons_ne (by decide)]; exact h5
      · rw [tx_cons_ne (by decide)]; exact h6
      · exact h7
    · -- t
      refine step { v with init := w } rfl fun v' h => ?_
      obtain ⟨h1, h2, h3, h4, h5, h6, h7⟩ := h
      refine ⟨?_, ?_, ?_, ?_, ?_, ?_, ?_⟩
      · rw [tx_cons_ne (by decide)]; exact h1
      · rw [tx_cons_ne (by decide)]; exact h2
      · rw [tx_cons_ne (by decide)]; exact h3
      · rw [tx_cons_ne (by decide)]; exact h4
      · rw [tx_cons_ne (by decide)]; exact h5
      · rw [tx_cons_ne (by decide)]; exact h6
      · exact h7
    · -- T
      obtain ⟨m, hm, e⟩ := hl.threads w (by rw [tx_cons_self]; exact List.mem_cons_self ..)
      have ha : atoi w = .ok m := by rw [e, atoi_dec hm]
      refine step { v with threads := m } ?_ fun v' h => ?_
      · simp only [handle]
        rw [if_neg (by decide), if_neg (by decide), if_neg (by decide), if_pos trivial, ha]
      obtain ⟨h1, h2, h3, h4, h5, h6, h7⟩ := h
      refine ⟨?_, ?_, ?_, ?_, ?_, ?_, ?_⟩
      · rw [tx_cons_ne (by decide)]; exact h1
      · rw [tx_cons_ne (by decide)]; exact h2
      · rw [tx_cons_self]; exact h3.cons ⟨m, hm, e, rfl⟩
      · rw [tx_cons_ne (by decide)]; exact h4
      · rw [tx_cons_ne (by decide)]; exact h5
      · rw [tx_cons_ne (by decide)]; exact h6
      · exact h7
    · -- d
      refine step { v with dist := w } rfl fun v' h => ?_
      obtain ⟨h1, h2, h3, h4, h5, h6, h7⟩ := h
      refine ⟨?_, ?_, ?_, ?_, ?_, ?_, ?_⟩
      · rw [tx_cons_self]; exact h1.cons rfl
      · rw [tx_cons_ne (by decide)]; exact h2
      · rw [tx_cons_ne (by decide)]; exact h3
      · rw [tx_cons_ne (by decide)]; exact h4
      · rw [tx_cons_ne (by decide)]; exact h5
      · rw [tx_cons_ne (by decide)]; exact h6
      · exact h7
    · -- C
      have hf := hl.files w (by rw [tx_cons_self]; exact List.mem_cons_self ..)
      cases e : env.files w with
      | none => exact absurd e hf
      | some f =>
        refine step { v with centers := some f, init := nm "none" } ?_ fun v' h => ?_
        · simp only [handle]
          rw [if_neg (by decide), if_neg (by decide), if_neg (by decide), if_neg (by decide), if_neg (by decide),
            if_pos trivial, e]
        obtain ⟨h1, h2, h3, h4, h5, h6, h7⟩ := h
        refine ⟨?_, ?_, ?_, ?_, ?_, ?_, ?_⟩
        · rw [tx_cons_ne (by decide)]; exact h1
        · rw [tx_cons_ne (by decide)]; exact h2
        · rw [tx_cons_ne (by decide)]; exact h3
        · rw [tx_cons_ne (by decide)]; exact h4
        · rw [tx_cons_ne (by decide)]; exact h5
        · rw [tx_cons_ne (by decide)]; exact h6
        · have hs : stx env.files (('C', w) :: l) = .centers (some f) :: stx env.files l := by
            simp [stx, e]
          rw [hs, Driver.startOptions]
          exact h7
    · -- N
      obtain ⟨m, hm, e⟩ := hl.nodes w (by rw [tx_cons_self]; exact List.mem_cons_self ..)
      have ha : atoi w = .ok m := by rw [e, atoi_dec hm]
      refine step v ?_ fun v' h => ?_
      · simp only [handle]
        rw [if_neg (by decide), if_neg (by decide), if_neg (by decide), if_neg (by decide), if_neg (by decide),
          if_neg (by decide), if_neg (by decide), if_pos trivial, ha]
      obtain ⟨h1, h2, h3, h4, h5, h6, h7⟩ := h
      refine ⟨?_, ?_, ?_, ?_, ?_, ?_, ?_⟩
      · rw [tx_cons_ne (by decide)]; exact h1
      · rw [tx_cons_ne (by decide)]; exact h2
      · rw [tx_cons_ne (by decide)]; exact h3
      · rw [tx_cons_ne (by decide)]; exact h4
      · rw [tx_cons_ne (by decide)]; exact h5
      · rw [tx_cons_ne (by decide)]; exact h6
      · exact h7
    · -- o
      refine step { v with outdir := w } rfl fun v' h => ?_
      obtain ⟨h1, h2, h3, h4, h5, h6, h7⟩ := h
      refine ⟨?_, ?_, ?_, ?_, ?_, ?_, ?_⟩
      · rw [tx_cons_ne (by decide)]; exact h1
      · rw [tx_cons_ne (by decide)]; exact h2
      · rw [tx_cons_ne (by decide)]; exact h3
      · rw [tx_cons_ne (by decide)]; exact h4
      · rw [tx_cons_self]; exact h5.cons rfl
      · rw [tx_cons_ne (by decide)]; exact h6
      · exact h7
    · -- P
      refine step { v with noPrune := true } rfl fun v' h => ?_
      obtain ⟨h1, h2, h3, h4, h5, h6, h7⟩ := h
      refine ⟨?_, ?_, ?_, ?_, ?_, ?_, ?_⟩
      · rw [tx_cons_ne (by decide)]; exact h1
      · rw [tx_cons_ne (by decide)]; exact h2
      · rw [tx_cons_ne (by decide)]; exact h3
      · rw [tx_cons_ne (by decide)]; exact h4
      · rw [tx_cons_ne (by decide)]; exact h5
      · rw [tx_cons_self]
        simp only [true_or, iff_true] at h6
        simp [h6]
      · exact h7

theorem fine_of {files : Str → Option (List B)} {items : List Item} (h : ∀ i ∈ items, i.Ok) (hl : Legible files items) :
    Fine files (given items) := by
  refine ⟨?_, hl.1, hl.2.1, hl.2.2.1, hl.2.2.2⟩
  intro p hp
  obtain ⟨i, hi, hp⟩ := List.mem_flatMap.1 hp
  have ho := h i hi
  cases i with
  | prune =>
    rw [Item.given, List.mem_singleton] at hp
    exact .inr (by rw [hp])
  | apart b x v =>
    have hx : x ∈ withArg := ho
    cases b <;> simp [Item.given] at hp
    · exact .inl (by rw [hp]; exact hx)
    · rcases hp with hp | hp
      · exact .inr (by rw [hp])
      · exact .inl (by rw [hp]; exact hx)
  | joined b x v =>
    have hx : x ∈ withArg := ho.1
    cases b <;> simp [Item.given] at hp
    · exact .inl (by rw [hp]; exact hx)
    · rcases hp with hp | hp
      · exact .inr (by rw [hp])
      · exact .inl (by rw [hp]; exact hx)
  | stray w => cases hp

theorem toDigits_inj {m n : Nat} (h : Nat.toDigits 10 m = Nat.toDigits 10 n) : m = n := by
  have h1 := (foldl_toDigits m).2.2
  rw [h, (foldl_toDigits n).2.2] at h1
  exact h1.symm

theorem upd_number {x : Char} {items : List Item} {b d n a : Nat}
    (h : Upd (tx x (given items)) (fun w a => ∃ m, m < b ∧ w = Nat.toDigits 10 m ∧ a = m) d a)
    (hn : Spec.KnordCli.Number x items d n) : a = n := by
  rcases hn with hn | ⟨hn, rfl⟩
  · obtain ⟨m, -, h2, h3⟩ := h.1 _ hn
    rw [h3]
    exact (toDigits_inj h2).symm
  · exact h.2 hn

theorem upd_text {x : Char} {items : List Item} {d s : String} {a : Str}
    (h : Upd (tx x (given items)) (fun w a => a = w) d.toList a) (hn : Spec.KnordCli.Text x items d s) :
    a = s.toList := by
  rcases hn with hn | ⟨hn, rfl⟩
  · exact h.1 _ hn
  · exact h.2 hn

/-! ### The program -/

section Main

open Driver Knor.Spec

theorem getopt_rest (rest : Option (List Str)) :
    getopt (ending rest) = [] := by
  cases rest with
  | none => rfl
  | some ws => rw [ending, getopt.eq_def]; simp

variable [Zero R] [Neg R] [One R] [Add R] [Sub R] [Mul R] [Div R] [IntCast R] [NatCast R] [LT R] [DecidableLT R] [LE R]
  [DecidableLE R]

/-- **C100, `knord`.** For a proper command line, `knord` does what the job with the parameters that it names does: each
option has the last argument it was given, wherever it stands and whether its argument is in the same word or the next;
words that are no options and words after `--` do not count; the result is written to the directory after `-o`. -/
theorem C100_knord (dist : (n : Nat) → Dist.Metric → Row R n → Row R n → R) (big : R) (c : Codec R B)
    (rng : (k : Nat) → 0 < k → Driver.Rng R S k) (sched1 sched2 : Nat → Nat → List Nat) (env : JobEnv R B)
    (fn : Str) (items : List Item) (rest : Option (List Str)) (a : Args R B) (ha : Asks env fn items a) :
    knordMain dist big c rng sched1 sched2 env (render fn a.nrow a.ncol a.k items rest) =
      finish (JobResult R) a.outdir.toList a.k a.ncol
        (Driver.knord a.noPrune (dist a.ncol) big c (rng a.k ha.k_pos) sched1 sched2 a.data (starts env.files items)
          a.nrow env.nprocs a.iters a.threads a.tol a.dist) := by
  have hat : ∀ x, x < 2 ^ 63 → atol (Nat.toDigits 10 x) = .ok x := fun x hx => by
    have := atol_dec hx [] (fun c h => by cases h)
    rwa [List.append_nil] at this
  obtain ⟨v, h1, h2⟩ := handleAll_ok env (given items) (fine_of ha.ok ha.legible) (Vars.start env)
  have hg : getopt (Nat.toDigits 10 a.k :: (items.flatMap Item.words ++ ending rest)) = (given items).map ev := by
    rw [getopt_stray (.inl (dec_head a.k)), getopt_items ha.ok, getopt_rest, List.append_nil]
  have hk : u32 a.k = a.k := by rw [u32, Nat.mod_eq_of_lt (by have := ha.k_lt; omega)]
  have e1 : v.outdir = a.outdir.toList := upd_text h2.outdir ha.outdir
  have e2 : String.ofList v.dist = a.dist := by
    rw [upd_text h2.dist ha.dist, String.ofList_toList]
  have e3 : v.iters = a.iters := upd_number h2.iters ha.iters
  have e4 : v.threads = a.threads := upd_number h2.threads ha.threads
  have e5 : v.tol = a.tol := by
    rcases ha.tol with ⟨w, h3, h4⟩ | ⟨h3, h4⟩
    · rw [h2.tol.1 w h3, h4]
    · rw [h2.tol.2 h3, h4]; rfl
  have e6 : v.noPrune = a.noPrune := by
    rw [Bool.eq_iff_iff, h2.noPrune, ha.noPrune]
    exact or_iff_right (by simp [Vars.start])
  have e7 : startOptions (starts env.files items) "kmeanspp" none = .ok (String.ofList v.init, v.centers) := h2.starts
  unfold knordMain Spec.KnordCli.render
  dsimp only
  rw [hat _ ha.nrow_lt, hat _ ha.ncol_lt, hat _ (by have := ha.k_lt; omega)]
  dsimp only
  rw [hg, h1]
  dsimp only
  rw [ha.data]
  dsimp only
  have : ∀ k' (h : 0 < k'), k' = a.k →
      finish (JobResult R) v.outdir k' a.ncol (Driver.knordWith v.noPrune (dist a.ncol) big c (rng k' h) sched1 sched2
        a.data (String.ofList v.init) v.centers a.nrow env.nprocs v.iters v.threads v.tol (String.ofList v.dist)) =
      finish (JobResult R) a.outdir.toList a.k a.ncol
        (Driver.knord a.noPrune (dist a.ncol) big c (rng a.k ha.k_pos) sched1 sched2 a.data (starts env.files items)
          a.nrow env.nprocs a.iters a.threads a.tol a.dist) := by
    intro k' h e
    subst e
    rw [e1, e2, e3, e4, e5, e6]
    unfold Driver.knord
    rw [e7]
  rw [dif_pos (by rw [hk]; exact ha.k_pos)]
  exact this _ _ hk

/-- **C100, mistakes.** An unknown letter, a long option or a missing argument ends the program with its usage, however
much of the command line before it is proper. -/
theorem C100_mistake (dist : (n : Nat) → Dist.Metric → Row R n → Row R n → R) (big : R) (c : Codec R B)
    (rng : (k : Nat) → 0 < k → Driver.Rng R S k) (sched1 sched2 : Nat → Nat → List Nat) (env : JobEnv R B)
    (fn : Str) (nrow ncol k : Nat) (hn : nrow < 2 ^ 63) (hm : ncol < 2 ^ 63) (hk : k < 2 ^ 63)
    (items : List Item) (hi : ∀ i ∈ items, i.Ok) (hl : Legible env.files items) (ws : List Str) (hw : Mistake ws) :
    knordMain dist big c rng sched1 sched2 env
      (fn :: Nat.toDigits 10 nrow :: Nat.toDigits 10 ncol :: Nat.toDigits 10 k :: (items.flatMap Item.words ++ ws)) =
      .badOption := by
  have hat : ∀ x, x < 2 ^ 63 → atol (Nat.toDigits 10 x) = .ok x := fun x hx => by
    have := atol_dec hx [] (fun c h => by cases h)
    rwa [List.append_nil] at this
  obtain ⟨v, h1, h2⟩ := handleAll_ok env (given items) (fine_of hi hl) (Vars.start env)
  have hb : ∃ p gs, getopt ws = preEv p ++ .bad :: gs := by
    cases hw with
    | unknown p x xs ws hx hP hd =>
      rw [getopt_dash p xs ws hd]
      have : letters (x :: xs) = ([.bad], none) := by
        rw [letters]
        split
        · rfl
        next hc => rw [lookup_unknown hx hP (fun e => hc (.inl e))]
      rw [this]
      exact ⟨p, getopt ws, by simp⟩
    | missing p x hx =>
      rw [getopt_dash p [] [] (dash_arg hx), letters_apart hx]
      exact ⟨p, [], by simp⟩
  obtain ⟨p, gs, hb⟩ := hb
  have hg : getopt (Nat.toDigits 10 k :: (items.flatMap Item.words ++ ws)) =
      (given items).map ev ++ (preEv p ++ .bad :: gs) := by
    rw [getopt_stray (.inl (dec_head k)), getopt_items hi, hb]
  unfold knordMain
  dsimp only
  rw [hat _ hn, hat _ hm, hat _ hk]
  dsimp only
  rw [hg, handleAll_append, h1]
  dsimp only
  cases p <;> rfl

/-- **C100, too few words.** -/
theorem C100_few (dist : (n : Nat) → Dist.Metric → Row R n → Row R n → R) (big : R) (c : Codec R B)
    (rng : (k : Nat) → 0 < k → Driver.Rng R S k) (sched1 sched2 : Nat → Nat → List Nat) (env : JobEnv R B)
    (argv : List Str) (h : argv.length < 4) : knordMain dist big c rng sched1 sched2 env argv = .badOption := by
  match argv, h with
  | [], _ => rfl
  | [_], _ => rfl
  | [_, _], _ => rfl
  | [_, _, _], _ => rfl
  | _ :: _ :: _ :: _ :: _, h => simp at h; omega

/-- **C100, files.** A file of centres that does not exist is refused where it is named, and so is a data file that does
not exist, unless something else is refused before. -/
theorem C100_files (dist : (n : Nat) → Dist.Metric → Row R n → Row R n → R) (big : R) (c : Codec R B)
    (rng : (k : Nat) → 0 < k → Driver.Rng R S k) (sched1 sched2 : Nat → Nat → List Nat) (env : JobEnv R B)
    (fn : Str) (nrow ncol k : Nat) (hn : nrow < 2 ^ 63) (hm : ncol < 2 ^ 63) (hk : k < 2 ^ 63)
    (items : List Item) (hi : ∀ i ∈ items, i.Ok) (hl : Legible env.files items) :
    (∀ p v ws, env.files v = none → knordMain dist big c rng sched1 sched2 env
      (fn :: Nat.toDigits 10 nrow :: Nat.toDigits 10 ncol :: Nat.toDigits 10 k ::
        (items.flatMap Item.words ++ ((Item.apart p 'C' v).words ++ ws))) = .fault .assertFail) ∧
    (env.files fn = none → ∀ rest, ∃ e, e ≠ .ub ∧
      knordMain dist big c rng sched1 sched2 env (render fn nrow ncol k items rest) = .fault e) := by
  have hat : ∀ x, x < 2 ^ 63 → atol (Nat.toDigits 10 x) = .ok x := fun x hx => by
    have := atol_dec hx [] (fun c h => by cases h)
    rwa [List.append_nil] at this
  obtain ⟨v, h1, h2⟩ := handleAll_ok env (given items) (fine_of hi hl) (Vars.start env)
  refine ⟨fun p w ws hw => ?_, fun hf rest => ?_⟩
  · have hg : getopt (Nat.toDigits 10 k :: (items.flatMap Item.words ++ ((Item.apart p 'C' w).words ++ ws))) =
        (given items).map ev ++ (preEv p ++ .opt 'C' w :: getopt ws) := by
      rw [getopt_stray (.inl (dec_head k)), getopt_items hi, getopt_item (by change 'C' ∈ withArg; decide)]
      cases p <;> rfl
    unfold knordMain
    dsimp only
    rw [hat _ hn, hat _ hm, hat _ hk]
    dsimp only
    rw [hg, handleAll_append, h1]
    dsimp only
    have hC : ∀ v', handle env (.opt 'C' w) v' = .fault .assertFail := fun v' => by
      simp only [handle]
      rw [if_neg (by decide), if_neg (by decide), if_neg (by decide), if_neg (by decide), if_neg (by decide),
        if_pos trivial, hw]
    cases p with
    | false =>
      rw [show preEv false ++ .opt 'C' w :: getopt ws = .opt 'C' w :: getopt ws from rfl, handleAll, hC]
    | true =>
      rw [show preEv true ++ .opt 'C' w :: getopt ws = .opt 'P' [] :: .opt 'C' w :: getopt ws from rfl, handleAll]
      have : handle env (.opt 'P' []) v = .done { v with noPrune := true } := rfl
      rw [this]
      dsimp only
      rw [handleAll, hC]
  · have hg : getopt (Nat.toDigits 10 k :: (items.flatMap Item.words ++ ending rest)) = (given items).map ev := by
      rw [getopt_stray (.inl (dec_head k)), getopt_items hi, getopt_rest, List.append_nil]
    unfold knordMain Spec.KnordCli.render
    dsimp only
    rw [hat _ hn, hat _ hm, hat _ hk]
    dsimp only
    rw [hg, h1]
    dsimp only
    rw [hf]
    dsimp only
    split
    · exact ⟨_, by decide, rfl⟩
    · exact ⟨_, by decide, rfl⟩

end Main

/-! ### What is delivered -/

section Delivered

open Driver Knor.Spec Knor.Partition

/-- **C100, `knord -P`.** For a command line with `-P` and a file that stores the matrix, the program delivers what Lloyd's
algorithm gives, for any number of processes and threads; the last of `-t` and `-C` names the initialisation. -/
theorem C100_lloyd {S B : Type _} (big X : ℝ) (h1 : 1 ≤ big) {c : Codec ℝ B} (hc : CodecOk c)
    (rng : (k : Nat) → 0 < k → Driver.Rng ℝ S k) (sched1 sched2 : Nat → Nat → List Nat) (env : JobEnv ℝ B)
    (fn : Str) (items : List Item) (rest : Option (List Str)) (a : Args ℝ B) (ha : Asks env fn items a)
    (hP : a.noPrune = true)
    (hl : a.ncol * (2 * X) < big) (hq : a.ncol * (2 * X) ^ 2 < big)
    (hcol : 0 < a.ncol) (hnp : 0 < env.nprocs) (hn : env.nprocs ≤ a.nrow) (hnt : 0 < a.threads)
    (hlt : a.nrow < 4294967296)
    (hsz : a.nrow * a.ncol * c.size < 9223372036854775808) (hszk : a.k * a.ncol * c.size < 18446744073709551616)
    (hrng : RngOk (rng a.k ha.k_pos) a.nrow)
    (hc1 : Distr.SchedOk a.nrow env.nprocs a.threads sched1) (hc2 : Distr.SchedOk a.nrow env.nprocs a.threads sched2)
    (m : Nat → Nat → ℝ) (given : Option (Nat → Nat → ℝ)) (it : InitT) (met : Dist.Metric)
    (hst : Stores c a.data m a.nrow a.ncol) (hx : none ∉ centerFiles (starts env.files items))
    (hcf : (centerFiles (starts env.files items)).getLast? =
      given.map (fun g => some ((rowsFrom g a.ncol 0 a.k).flatMap c.enc)))
    (hm : ∀ r j, r < a.nrow → j < a.ncol → |m r j| ≤ X)
    (hg : ∀ g, given = some g → ∀ r j, r < a.k → j < a.ncol → |g r j| ≤ X)
    (hi : getInit (lastInit (starts env.files items)) = .ok it) (hnone : it = .none → given.isSome)
    (hd : getDist a.dist = .ok met) (hcos : met ≠ .cos) :
    ∃ res : JobResult ℝ a.k a.ncol,
      knordMain (fun _ => realDist big) big c rng sched1 sched2 env (render fn a.nrow a.ncol a.k items rest) =
        .done ⟨a.outdir.toList, a.k, a.ncol, res⟩ ∧
      DeliversJob it (realDist big met) (matRows m) a.nrow (rng a.k ha.k_pos) (givenCents given) a.tol a.iters res := by
  obtain ⟨res, h2, h3⟩ := (C85_knord big X h1 hl hq hc (rng a.k ha.k_pos) sched1 sched2 a.data (starts env.files items)
    a.nrow env.nprocs a.iters a.threads a.tol a.dist ha.k_pos hcol hnp hn hnt hlt hsz hszk hrng hc1 hc2).2.2
    m given it met hst hx hcf hm hg hi hnone hd hcos
  refine ⟨res, ?_, h3⟩
  rw [C100_knord _ big c rng sched1 sched2 env fn items rest a ha, hP, h2]
  rfl

/-- **C100, `knord`.** The same without `-P`: the pruned variant (see C86). -/
theorem C100_pruned_partial {S B : Type _} (big X : ℝ) (h1 : 1 ≤ big) {c : Codec ℝ B} (hc : CodecOk c)
    (rng : (k : Nat) → 0 < k → Driver.Rng ℝ S k) (sched1 sched2 : Nat → Nat → List Nat) (env : JobEnv ℝ B)
    (fn : Str) (items : List Item) (rest : Option (List Str)) (a : Args ℝ B) (ha : Asks env fn items a)
    (hP : a.noPrune = false)
    (hl : a.ncol * (2 * X) < big) (hq : a.ncol * (2 * X) ^ 2 < big) (hk : 1 < a.k)
    (hcol : 0 < a.ncol) (hnp : 0 < env.nprocs) (hn : env.nprocs ≤ a.nrow) (hnt : 0 < a.threads)
    (hlt : a.nrow + 8192 < 4294967296)
    (hsz : a.nrow * a.ncol * c.size < 9223372036854775808) (hszk : a.k * a.ncol * c.size < 18446744073709551616)
    (hrng : RngOk (rng a.k ha.k_pos) a.nrow)
    (hc1 : Distr.TaskSchedOk a.nrow env.nprocs a.threads sched1)
    (hc2 : Distr.TaskSchedOk a.nrow env.nprocs a.threads sched2)
    (m : Nat → Nat → ℝ) (given : Option (Nat → Nat → ℝ)) (it : InitT) (met : Dist.Metric)
    (hst : Stores c a.data m a.nrow a.ncol) (hx : none ∉ centerFiles (starts env.files items))
    (hcf : (centerFiles (starts env.files items)).getLast? =
      given.map (fun g => some ((rowsFrom g a.ncol 0 a.k).flatMap c.enc)))
    (hm : ∀ r j, r < a.nrow → j < a.ncol → |m r j| ≤ X)
    (hg : ∀ g, given = some g → ∀ r j, r < a.k → j < a.ncol → |g r j| ≤ X)
    (hi : getInit (lastInit (starts env.files items)) = .ok it) (hnone : it = .none → given.isSome)
    (hd : getDist a.dist = .ok met) (hcos : met ≠ .cos) :
    ∃ res : JobResult ℝ a.k a.ncol,
      knordMain (fun _ => realDist big) big c rng sched1 sched2 env (render fn a.nrow a.ncol a.k items rest) =
        .done ⟨a.outdir.toList, a.k, a.ncol, res⟩ ∧
      DeliversJobPruned it (realDist big met) (met = .eucl) (matRows m) a.nrow (rng a.k ha.k_pos) (givenCents given) a.tol
        a.iters res := by
  obtain ⟨res, h2, h3⟩ := (C86_knord_partial big X h1 hl hq hc (rng a.k ha.k_pos) sched1 sched2 a.data
    (starts env.files items) a.nrow env.nprocs a.iters a.threads a.tol a.dist hk hcol hnp hn hnt hlt hsz hszk hrng hc1
    hc2).2.2 m given it met hst hx hcf hm hg hi hnone hd hcos
  refine ⟨res, ?_, h3⟩
  rw [C100_knord _ big c rng sched1 sched2 env fn items rest a ha, hP, h2]
  rfl

/-- What `knord` finds: a data file and a file of centres, two processes. -/
def jobEnv (R : Type) [Zero R] (b f : List R) : JobEnv R R :=
  ⟨fun s => if s = nm "data.bin" then some b else if s = nm "cents.bin" then some f else none, 4, fun _ => 0, 2⟩

/-- `-i 7 -PT2 -C cents.bin -t kmeanspp x -i100 -o out` -/
def jobItems : List Item :=
  [.apart false 'i' (nm "7"), .joined true 'T' (nm "2"), .apart false 'C' (nm "cents.bin"),
    .apart false 't' (nm "kmeanspp"), .stray (nm "x"), .joined false 'i' (nm "100"), .apart false 'o' (nm "out")]

theorem job_words : render (nm "data.bin") 4 1 2 jobItems (some [nm "-z"]) =
    [nm "data.bin", nm "4", nm "1", nm "2", nm "-i", nm "7", nm "-PT2", nm "-C", nm "cents.bin", nm "-t", nm "kmeanspp",
      nm "x", nm "-i100", nm "-o", nm "out", nm "--", nm "-z"] := by
  decide +kernel

/-- What this asks for. -/
noncomputable def jobArgs (b : List ℝ) : Args ℝ ℝ :=
  { data := b, nrow := 4, ncol := 1, k := 2, iters := 100, threads := 2, tol := -1, dist := "eucl", noPrune := true
    outdir := "out" }

theorem job_asks (b f : List ℝ) : Asks (jobEnv ℝ b f) (nm "data.bin") jobItems (jobArgs b) where
  ok := by
    intro i hi
    simp only [jobItems, List.mem_cons, List.not_mem_nil, or_false] at hi
    rcases hi with rfl | rfl | rfl | rfl | rfl | rfl | rfl <;> (simp only [Item.Ok]; decide +kernel)
  legible := by
    refine ⟨fun v hv => ?_, fun v hv => ?_, fun v hv => ?_, fun v hv => ?_⟩
    · rw [show texts 'i' jobItems = [nm "7", nm "100"] by decide +kernel] at hv
      simp only [List.mem_cons, List.not_mem_nil, or_false] at hv
      rcases hv with rfl | rfl
      · exact ⟨7, by norm_num, by decide +kernel⟩
      · exact ⟨100, by norm_num, by decide +kernel⟩
    · rw [show texts 'T' jobItems = [nm "2"] by decide +kernel] at hv
      simp only [List.mem_cons, List.not_mem_nil, or_false] at hv
      exact ⟨2, by norm_num, by rw [hv]; decide +kernel⟩
    · rw [show texts 'N' jobItems = [] by decide +kernel] at hv
      cases hv
    · rw [show texts 'C' jobItems = [nm "cents.bin"] by decide +kernel] at hv
      simp only [List.mem_cons, List.not_mem_nil, or_false] at hv
      rw [hv]
      have e1 : nm "cents.bin" ≠ nm "data.bin" := by decide +kernel
      simp [jobEnv, e1]
  data := by simp [jobEnv, jobArgs]
  nrow_lt := by change 4 < 2 ^ 63; decide
  ncol_lt := by change 1 < 2 ^ 63; decide
  k_pos := by change 0 < 2; decide
  k_lt := by change 2 < 2 ^ 32; decide
  iters := .inl (by change _ = some (Nat.toDigits 10 100); decide +kernel)
  threads := .inl (by change _ = some (Nat.toDigits 10 2); decide +kernel)
  tol := .inr ⟨by decide +kernel, rfl⟩
  dist := .inr ⟨by decide +kernel, rfl⟩
  noPrune := ⟨fun _ => by decide +kernel, fun _ => rfl⟩
  outdir := .inl (by change _ = some "out".toList; decide +kernel)

/-- The whole program on the four rows; k-means++ is asked for after the file of centres. -/
example : ∃ res : JobResult ℝ 2 1,
    knordMain (fun _ => realDist 1000) 1000 (oneCell ℝ) (countAll ℝ) demoScheds demoScheds
      (jobEnv ℝ ((rowsFrom fourRows 1 0 4).flatMap (oneCell ℝ).enc) ((rowsFrom fourRows 1 0 2).flatMap (oneCell ℝ).enc))
      [nm "data.bin", nm "4", nm "1", nm "2", nm "-i", nm "7", nm "-PT2", nm "-C", nm "cents.bin", nm "-t",
        nm "kmeanspp", nm "x", nm "-i100", nm "-o", nm "out", nm "--", nm "-z"] = .done ⟨nm "out", 2, 1, res⟩ ∧
    DeliversJob .plusplus (realDist 1000 .eucl) (matRows fourRows) 4 (countAll ℝ 2 (by decide))
      (givenCents (some fourRows)) (-1) 100 res := by
  have hb : ∀ r j, |fourRows r j| ≤ 12 := fun r j => by unfold fourRows; split_ifs <;> norm_num
  have hs : ∀ b f : List ℝ, starts (jobEnv ℝ b f).files jobItems = [.centers (some f), .init "kmeanspp"] := by
    intro b f
    have e1 : nm "cents.bin" ≠ nm "data.bin" := by decide +kernel
    have : Spec.KnordCli.given jobItems = [('i', nm "7"), ('P', []), ('T', nm "2"), ('C', nm "cents.bin"),
      ('t', nm "kmeanspp"), ('i', nm "100"), ('o', nm "out")] := by decide +kernel
    unfold starts
    rw [this]
    simp [jobEnv, nm]
  rw [← job_words]
  exact C100_lloyd 1000 12 (by norm_num) (oneCell_ok ℝ) (countAll ℝ) demoScheds demoScheds _ (nm "data.bin") jobItems
    (some [nm "-z"]) (jobArgs _) (job_asks _ _) rfl (by norm_num [jobArgs]) (by norm_num [jobArgs]) (by decide)
    (by change 0 < 2; decide) (by change 2 ≤ 4; decide) (by decide) (by decide) (by decide) (by decide) (counter_ok ℝ)
    demoScheds_ok demoScheds_ok fourRows (some fourRows) .plusplus .eucl rfl (by rw [hs]; simp [centerFiles])
    (by rw [hs]; rfl) (fun r j _ _ => hb r j) (fun g h r j _ _ => by rw [← Option.some.inj h]; exact hb r j)
    (by rw [hs]; rfl) (fun h => by cases h) rfl (by decide)

/-- Mistakes after proper options. -/
example (ws : List Str) (h : ws = [nm "-z"] ∨ ws = [nm "--help"] ∨ ws = [nm "-PT"]) :
    knordMain (fun _ => realDist 1000) 1000 (oneCell ℝ) (countAll ℝ) demoScheds demoScheds (jobEnv ℝ [] [])
      (nm "data.bin" :: nm "4" :: nm "1" :: nm "2" :: (jobItems.flatMap Item.words ++ ws)) = .badOption := by
  refine C100_mistake _ _ _ _ _ _ _ (nm "data.bin") 4 1 2 (by norm_num) (by norm_num) (by norm_num) jobItems
    (job_asks [] []).ok (job_asks [] []).legible ws ?_
  rcases h with rfl | rfl | rfl
  · exact .unknown false 'z' [] [] (by decide) (by decide) (by decide)
  · exact .unknown false '-' (nm "help") [] (by decide) (by decide) (by decide)
  · exact .missing true 'T' (by decide)

/-- A file that is not there. -/
example : knordMain (fun _ => realDist 1000) 1000 (oneCell ℝ) (countAll ℝ) demoScheds demoScheds (jobEnv ℝ [] [])
      (nm "data.bin" :: nm "4" :: nm "1" :: nm "2" :: (jobItems.flatMap Item.words ++ [nm "-C", nm "no.bin", nm "-P"])) =
    .fault .assertFail :=
  (C100_files _ _ _ _ _ _ _ (nm "data.bin") 4 1 2 (by norm_num) (by norm_num) (by norm_num) jobItems
    (job_asks [] []).ok (job_asks [] []).legible).1 false (nm "no.bin") [nm "-P"] (by
      have e1 : nm "no.bin" ≠ nm "data.bin" := by decide +kernel
      have e2 : nm "no.bin" ≠ nm "cents.bin" := by decide +kernel
      simp [jobEnv, e1, e2])

/-! ### What is not as it should be -/

/-- The variables after the loop, for display. -/
def shown (ws : List String) : Option (Nat × Nat × Str × Bool) :=
  match handleAll (jobEnv ℚ [0, 1, 10, 12] [0, 1]) (getopt (ws.map nm)) (Vars.start (jobEnv ℚ [0, 1, 10, 12] [0, 1])) with
  | .done v => some (v.iters, v.threads, v.init, v.noPrune)
  | _ => none

/-- **C100 fails for arguments that are no numbers.** `-i many` is no iteration, `-T all` is no thread, `-T -1` is
4294967295 threads, and `-i 4294967297` is one iteration. -/
theorem C100_number_violated :
    shown ["-i", "many", "-T", "all"] = some (0, 0, nm "kmeanspp", false) ∧
    shown ["-T", "-1"] = some (4294967295, 4294967295, nm "kmeanspp", false) ∧
    shown ["-i", "4294967297"] = some (1, 4, nm "kmeanspp", false) := by
  refine ⟨?_, ?_, ?_⟩ <;> decide +kernel

/-- **C100 fails for an initialisation after a file of centres.** A comment in the program says that with `-C` whatever
initialisation is passed is ignored; it is not if it comes later. -/
theorem C100_order_violated :
    shown ["-t", "forgy", "-C", "cents.bin"] = some (4294967295, 4, nm "none", false) ∧
    shown ["-C", "cents.bin", "-t", "forgy"] = some (4294967295, 4, nm "forgy", false) := by
  decide +kernel

end Delivered

end Knor.Cli
