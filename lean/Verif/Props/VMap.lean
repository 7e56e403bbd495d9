import Mathlib.Logic.Function.Basic
import Verif.Lemmas.VMap

/-!
# C47 (the growable map) and C48 (the flag vector)
-/

namespace Knor.VMap

open Knor

variable {T : Type _} [DecidableEq T]

/-! ## C47 -/

/-- Operations on a map. -/
inductive Op (T : Type _) where
  | put (i : Nat) (v : T)
  | read (i : Nat)
  | erase (i : Nat)
  | clear
  deriving DecidableEq, Repr

/-- What an operation does to a `vmap`. -/
def step (dflt : T) (m : VMap T) : Op T → Res (VMap T)
  | .put i v => .ok (m.put dflt i v)
  | .read i => .ok (m.read dflt i).2
  | .erase i => m.erase i
  | .clear => .ok m.clear

/-- Run a history. -/
def run (dflt : T) : List (Op T) → VMap T → Res (VMap T)
  | [], m => .ok m
  | o :: l, m =>
    match step dflt m o with
    | .error e => .error e
    | .ok m' => run dflt l m'

/-- **Specification.**  What the operation does to a finite map with keys `i` and values different
from the reserved value `e` (storing the reserved value removes the key). -/
def specStep (e : T) (f : Nat → Option T) : Op T → (Nat → Option T)
  | .put i v => Function.update f i (if v = e then none else some v)
  | .read _ => f
  | .erase i => Function.update f i none
  | .clear => fun _ => none

/-- The finite map after a history. -/
def spec (e : T) (l : List (Op T)) : Nat → Option T := l.foldl (specStep e) fun _ => none

/-- Every observer of `m` answers as the finite map `f` does. -/
structure Behaves (dflt : T) (m : VMap T) (f : Nat → Option T) : Prop where
  /-- `operator[]` returns the value stored under the key and the reserved value without one. -/
  read : ∀ i, (m.read dflt i).1 = (f i).getD m.emptyval
  /-- `has_key`. -/
  hasKey : ∀ i, m.hasKey i = .ok (f i).isSome
  /-- `get_keys` lists the keys, each once, in increasing order. -/
  keys : ∀ i, i ∈ m.getKeys ↔ (f i).isSome
  keysSorted : m.getKeys.Pairwise (· < ·)
  /-- `keycount`. -/
  count : m.keycount = m.getKeys.length
  /-- `keyless`. -/
  keyless : m.keyless = true ↔ ∀ i, f i = none
  /-- The iterator visits the entries, each once, in increasing order of the keys, and stops. -/
  entries : ∃ es, m.entries = .ok es ∧ (∀ i v, (i, v) ∈ es ↔ f i = some v) ∧
    (es.map Prod.fst).Pairwise (· < ·)

/-- **C47, as it should be.** -/
def IsFiniteMap (T : Type _) [DecidableEq T] : Prop :=
  ∀ (dflt e : T) (capacity : Nat) (l : List (Op T)) (m : VMap T),
    run dflt l (create capacity e) = .ok m → m.size < 18446744073709551616 →
      Behaves dflt m (spec e l)

/-- **C47 is violated** when the reserved value is not the value-initialised one: growing the map
makes keys appear that were never stored. -/
theorem C47_violated_phantom_keys : ¬ IsFiniteMap Nat := by
  intro h
  have := (h 0 7 1 [.put 2 5] ⟨[7, 0, 5], 7⟩ (by decide) (by decide)).keys 1
  revert this
  decide

/-- **C47 is violated** on a map without capacity: `has_key` compares with `size() - 1`, which wraps
around, and then reads outside the vector. -/
theorem C47_violated_hasKey_empty (e : T) :
    run e [] (create 0 e) = .ok (create 0 e) ∧ ∀ i, i < 18446744073709551615 →
      (create 0 e).hasKey i = .error .ub := by
  refine ⟨rfl, fun i hi => ?_⟩
  unfold VMap.hasKey
  rw [if_neg]
  · simp [create]
  · have : sub64 (create 0 e).size 1 = 18446744073709551615 := by
      simp [create, VMap.size, sub64, u64]
    omega

omit [DecidableEq T] in
/-- **C47 is violated** by `erase` of a key beyond the size, which writes outside the vector
instead of leaving the map alone. -/
theorem C47_violated_erase (e : T) (capacity i : Nat) (h : capacity ≤ i) :
    run e [.erase i] (create capacity e) = .error .ub := by
  have : (create capacity e).erase i = .error .ub := by
    unfold VMap.erase
    rw [if_neg (by simp [create, VMap.size]; omega)]
  simp only [run, step, this]

theorem run_look (e : T) : ∀ (l : List (Op T)) (m m' : VMap T), m.emptyval = e →
    run e l m = .ok m' → m'.emptyval = e ∧ m.size ≤ m'.size ∧
      look e m'.data = l.foldl (specStep e) (look e m.data) := by
  intro l
  induction l with
  | nil =>
    intro m m' he h
    cases h
    exact ⟨he, Nat.le_refl _, rfl⟩
  | cons o l ih =>
    intro m m' he h
    unfold run at h
    have touchLook : ∀ i, look e (m.touch e i).data = look e m.data ∧
        m.size ≤ (m.touch e i).size ∧ i < (m.touch e i).size ∧ (m.touch e i).emptyval = e := by
      intro i
      unfold VMap.touch
      split
      · refine ⟨look_grow e _ _, ?_, ?_, he⟩
        · simp [VMap.size, growTo]
        · simp only [VMap.size, growTo, List.length_append, List.length_replicate]
          omega
      · exact ⟨rfl, Nat.le_refl _, by omega, he⟩
    cases o with
    | put i v =>
      obtain ⟨t1, t2, t3, t4⟩ := touchLook i
      obtain ⟨h1, h2, h3⟩ := ih _ _ (show (m.put e i v).emptyval = e from t4) h
      refine ⟨h1, Nat.le_trans t2 (Nat.le_trans (by simp [VMap.put, VMap.size]) h2), ?_⟩
      rw [h3, List.foldl_cons]
      congr 1
      show look e ((m.touch e i).data.set i v) = _
      rw [look_set e _ _ _ t3, t1]
      unfold specStep
      congr 1
      by_cases hv : v = e
      · rw [if_pos hv, if_neg (by simp [hv])]
      · rw [if_neg hv, if_pos fun h => hv h.symm]
    | read i =>
      obtain ⟨t1, t2, t3, t4⟩ := touchLook i
      obtain ⟨h1, h2, h3⟩ := ih _ _ (show (m.read e i).2.emptyval = e from t4) h
      refine ⟨h1, Nat.le_trans t2 h2, ?_⟩
      rw [h3, List.foldl_cons]
      congr 1
    | erase i =>
      simp only [step, VMap.erase] at h
      by_cases hi : i < m.size
      · rw [if_pos hi] at h
        obtain ⟨h1, h2, h3⟩ := ih { m with data := m.data.set i m.emptyval } _ he h
        refine ⟨h1, by simpa [VMap.size] using h2, ?_⟩
        rw [h3, List.foldl_cons]
        congr 1
        show look e (m.data.set i m.emptyval) = _
        rw [look_set e _ _ _ hi, he]
        simp [specStep]
      · rw [if_neg hi] at h
        cases h
    | clear =>
      obtain ⟨h1, h2, h3⟩ := ih _ _ (show m.clear.emptyval = e from he) h
      refine ⟨h1, by simpa [VMap.size, VMap.clear] using h2, ?_⟩
      rw [h3, List.foldl_cons]
      congr 1
      funext j
      show look e (List.replicate m.size m.emptyval) j = _
      rw [he, look_replicate]
      rfl

/-- **C47, partial.**  For maps whose reserved value is the value-initialised one (all maps in the
code base) and that start with a positive capacity: after every history of stores, reads, erasures
inside the current size and clears, every observer answers as the finite map does.
Missing: other reserved values, maps of capacity 0, erasing beyond the size (see the violations). -/
theorem C47_finite_map_partial (e : T) (capacity : Nat) (hcap : 0 < capacity) (l : List (Op T))
    (m : VMap T) (h : run e l (create capacity e) = .ok m) (hsz : m.size < 18446744073709551616) :
    Behaves e m (spec e l) := by
  obtain ⟨h1, h2, h3⟩ := run_look e l _ _ rfl h
  have hf : look e m.data = spec e l := by
    rw [h3]
    unfold spec
    congr 1
    funext i
    exact look_replicate e _ _
  have hpos : 0 < m.size := by
    have : (create capacity e).size = capacity := by simp [create, VMap.size]
    omega
  rw [← hf]
  have hsub : sub64 m.size 1 = m.size - 1 := by
    simp only [sub64, u64]
    omega
  refine ⟨?_, ?_, ?_, keysFrom_sorted _ _ _, ?_, ?_, ?_⟩
  · intro i
    rw [h1]
    unfold VMap.read VMap.touch
    simp only
    split
    · rename_i hi
      have hi' : m.data.length ≤ i := hi
      have : look e m.data i = none := by
        unfold look
        rw [List.getElem?_eq_none hi']
      rw [this]
      show (growTo e m.data (i + 1)).getD i e = e
      unfold growTo
      rw [List.getD_append_right _ _ _ _ hi', List.getD_eq_getElem?_getD, List.getElem?_replicate]
      split <;> rfl
    · rename_i hi
      have hi' : i < m.data.length := by unfold VMap.size at hi; omega
      unfold look
      rw [List.getD_eq_getElem?_getD, List.getElem?_eq_getElem hi']
      simp only [Option.getD_some]
      split
      · rfl
      · rename_i hx
        simp only [ne_eq, not_not] at hx
        exact hx.symm
  · intro i
    unfold VMap.hasKey
    rw [hsub]
    unfold look
    split
    · rename_i hi
      have hi' : m.data.length ≤ i := by unfold VMap.size at hi hpos; omega
      rw [List.getElem?_eq_none hi']
      rfl
    · rename_i hi
      have hi' : i < m.data.length := by unfold VMap.size at hi hpos; omega
      rw [List.getElem?_eq_getElem hi', h1]
      simp only
      by_cases hx : e ≠ m.data[i]
      · simp [hx]
      · simp [hx]
  · intro i
    unfold VMap.getKeys
    rw [h1, mem_keysFrom]
    simp
  · unfold VMap.keycount VMap.getKeys
    rw [foldl_count _ _ 0]
    omega
  · unfold VMap.keyless
    rw [h1]
    exact keyless_iff e m.data
  · refine ⟨_, entries_eq m, ?_, ?_⟩
    · intro i v
      rw [h1, mem_pairsFrom]
      simp
    · rw [pairsFrom_fst]
      exact keysFrom_sorted _ _ _

/-- A history with growth, an overwritten and an erased key. -/
example : run 0 [.put 1 5, .put 4 6, .read 7, .put 1 8, .erase 4, .put 2 9] (create 3 0)
      = .ok ⟨[0, 8, 9, 0, 0, 0, 0, 0], 0⟩ ∧
    (⟨[0, 8, 9, 0, 0, 0, 0, 0], 0⟩ : VMap Nat).entries = .ok [(1, 8), (2, 9)] := by decide

/-- **C47, reading a constant map (partial).**  On a map after such a history the const `operator[]` reads what was stored
under the key, the reserved value if there is none, and it throws exactly when the key is beyond the current size. -/
theorem C47_const_read_partial (e : T) (capacity : Nat) (l : List (Op T)) (m : VMap T)
    (h : run e l (create capacity e) = .ok m) (i : Nat) :
    m.constRead i = if i < m.size then .ok ((spec e l i).getD e) else .error .throws := by
  obtain ⟨h1, h2, h3⟩ := run_look e l _ _ rfl h
  have hf : look e m.data = spec e l := by
    rw [h3]
    unfold spec
    congr 1
    funext i
    exact look_replicate e _ _
  rw [← hf]
  unfold VMap.constRead VMap.size look
  by_cases hi : i < m.data.length
  · rw [List.getElem?_eq_getElem hi, if_pos hi]
    dsimp only
    split
    · rfl
    · rename_i hx
      simp only [ne_eq, not_not] at hx
      rw [Option.getD_none, ← hx]
  · rw [List.getElem?_eq_none (by omega), if_neg hi]

example : ∃ m, run 0 [.put 1 5, .put 4 6, .erase 4] (create 3 0) = .ok m ∧ m.constRead 1 = .ok 5 ∧
    m.constRead 4 = .ok 0 ∧ m.constRead 5 = .error .throws := by
  refine ⟨⟨[0, 5, 0, 0, 0], 0⟩, ?_, ?_, ?_, ?_⟩ <;> decide

/-! ## C48 -/

/-- **C48, as it should be**: after `check_set(idx, v)` the vector holds entry `idx`, it reads back
`v`, no entry is lost, every other old entry is unchanged and every other new entry is false. -/
def CheckSetOk (l : List Bool) (idx : Nat) (v : Bool) : Prop :=
  ∃ l', flagsCheckSet l idx v = .ok l' ∧ idx < l'.length ∧ l.length ≤ l'.length ∧
    flagsGet l' idx = .ok v ∧
    ∀ j, j < l'.length → j ≠ idx → flagsGet l' j = if j < l.length then flagsGet l j else .ok false

/-- **C48 is violated** for every vector: writing the flag just behind the last one does not grow the
vector and writes outside it. -/
theorem C48_violated (l : List Bool) (v : Bool) :
    flagsCheckSet l l.length v = .error .ub ∧ ¬ CheckSetOk l l.length v := by
  have h : flagsCheckSet l l.length v = .error .ub := by
    unfold flagsCheckSet flagsSet
    rw [if_neg (Nat.lt_irrefl _), if_neg (Nat.lt_irrefl _)]
  refine ⟨h, ?_⟩
  rintro ⟨l', e, _⟩
  rw [h] at e
  cases e

/-- **C48, partial.**  Every other index works.  Missing: `idx = size` (see `C48_violated`). -/
theorem C48_check_set_partial (l : List Bool) (idx : Nat) (v : Bool) (h : idx ≠ l.length) :
    CheckSetOk l idx v := by
  unfold CheckSetOk flagsCheckSet flagsSet
  by_cases hi : idx > l.length
  · rw [if_pos hi]
    have hl : (flagsResize l (idx + 1) false).length = idx + 1 := by
      simp only [flagsResize, List.length_append, List.length_take, List.length_replicate]
      omega
    rw [if_pos (by omega)]
    refine ⟨_, rfl, by simp [hl], by simp [hl]; omega, ?_, ?_⟩
    · unfold flagsGet
      rw [List.getElem?_set_self (by omega)]
    · intro j hj hne
      simp only [List.length_set] at hj
      unfold flagsGet
      rw [List.getElem?_set_ne (fun e => hne e.symm)]
      unfold flagsResize
      rw [List.take_of_length_le (by omega), List.getElem?_append]
      by_cases hjl : j < l.length
      · rw [if_pos hjl, if_pos hjl]
      · rw [if_neg hjl, if_neg hjl, List.getElem?_replicate, if_pos (by omega)]
  · rw [if_neg hi, if_pos (by omega)]
    refine ⟨_, rfl, by simp; omega, by simp, ?_, ?_⟩
    · unfold flagsGet
      rw [List.getElem?_set_self (by omega)]
    · intro j hj hne
      simp only [List.length_set] at hj
      unfold flagsGet
      rw [List.getElem?_set_ne (fun e => hne e.symm), if_pos hj]

example : flagsCheckSet [true, false] 4 true = .ok [true, false, false, false, true] := by decide
example : flagsCheckSet [true, false] 0 false = .ok [false, false] := by decide

/-- **C48, creation.**  A new vector has the given number of flags, all with the given value; reading behind them is
undefined. -/
theorem C48_create_partial (len : Nat) (init : Bool) (i : Nat) :
    (flagsCreate len init).length = len ∧
      flagsGet (flagsCreate len init) i = if i < len then .ok init else .error .ub := by
  unfold flagsCreate flagsGet
  refine ⟨List.length_replicate, ?_⟩
  rw [List.getElem?_replicate]
  by_cases h : i < len
  · rw [if_pos h, if_pos h]
  · rw [if_neg h, if_neg h]

example : flagsGet (flagsCreate 3 true) 2 = .ok true ∧ flagsGet (flagsCreate 3 true) 3 = .error .ub := by decide

end Knor.VMap
