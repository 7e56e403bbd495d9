import Mathlib.Data.List.OfFn
import Mathlib.Data.Fintype.Basic
import Verif.Model.FlatClusters
import Verif.Model.Clusters
import Verif.Spec.FlatClusters

/-!
# The flat storage of clusters
-/

namespace Knor.Flat

open Knor.Spec

variable {R : Type _} {k n : Nat}

@[simp] theorem flat_length (m : Fin k → Fin n → R) : (flat m).length = k * n := by simp [flat]

theorem pos_lt (c : Fin k) (j : Fin n) : c.val * n + j.val < k * n := by
  have h1 : (c.val + 1) * n ≤ k * n := Nat.mul_le_mul_right n c.2
  have h2 := j.2
  rw [Nat.add_mul, Nat.one_mul] at h1
  omega

theorem flat_get (m : Fin k → Fin n → R) (c : Fin k) (j : Fin n) : (flat m)[c.val * n + j.val]? = some (m c j) := by
  have hn : 0 < n := by have := j.2; omega
  unfold flat
  rw [List.getElem?_ofFn, dif_pos (pos_lt c j)]
  have e1 : (⟨c.val * n + j.val, pos_lt c j⟩ : Fin (k * n)).divNat = c := by
    apply Fin.ext
    simp only [Fin.coe_divNat]
    rw [Nat.add_comm, Nat.add_mul_div_right _ _ hn, Nat.div_eq_of_lt j.2, Nat.zero_add]
  have e2 : (⟨c.val * n + j.val, pos_lt c j⟩ : Fin (k * n)).modNat = j := by
    apply Fin.ext
    simp only [Fin.coe_modNat]
    rw [Nat.add_comm, Nat.add_mul_mod_self_right, Nat.mod_eq_of_lt j.2]
  rw [e1, e2]

/-- Every position belongs to a cluster and a column. -/
theorem pos_exists {i : Nat} (h : i < k * n) : ∃ (c : Fin k) (j : Fin n), i = c.val * n + j.val := by
  refine ⟨(⟨i, h⟩ : Fin (k * n)).divNat, (⟨i, h⟩ : Fin (k * n)).modNat, ?_⟩
  simp only [Fin.coe_divNat, Fin.coe_modNat]
  rw [Nat.mul_comm]
  exact (Nat.div_add_mod i n).symm

theorem pos_inj {c c' : Fin k} {j j' : Fin n} (h : c.val * n + j.val = c'.val * n + j'.val) : c = c' ∧ j = j' := by
  have hn : 0 < n := by have := j.2; omega
  have e : ∀ (c : Fin k) (j : Fin n), (c.val * n + j.val) / n = c.val ∧ (c.val * n + j.val) % n = j.val := by
    intro c j
    rw [Nat.add_comm, Nat.add_mul_div_right _ _ hn, Nat.div_eq_of_lt j.2, Nat.zero_add, Nat.add_mul_mod_self_right,
      Nat.mod_eq_of_lt j.2]
    exact ⟨rfl, rfl⟩
  have h1 := e c j
  have h2 := e c' j'
  rw [h] at h1
  exact ⟨Fin.ext (h1.1.symm.trans h2.1), Fin.ext (h1.2.symm.trans h2.2)⟩

theorem flat_ext {v : List R} {m : Fin k → Fin n → R} (hl : v.length = k * n)
    (h : ∀ c j, v[(c : Fin k).val * n + (j : Fin n).val]? = some (m c j)) : v = flat m := by
  apply List.ext_getElem?
  intro i
  by_cases hi : i < k * n
  · obtain ⟨c, j, rfl⟩ := pos_exists hi
    rw [h c j, flat_get]
  · rw [List.getElem?_eq_none (by omega), List.getElem?_eq_none (by rw [flat_length]; omega)]

theorem upd_flat {f : R → Res R} {m : Fin k → Fin n → R} {c : Fin k} {j : Fin n} {y : R} (h : f (m c j) = .ok y) :
    upd f (c.val * n + j.val) (flat m) = .ok (flat (Function.update m c (Function.update (m c) j y))) := by
  unfold upd
  rw [flat_get]
  simp only
  rw [h]
  simp only [Except.ok.injEq]
  apply flat_ext (by simp)
  intro c' j'
  rw [List.getElem?_set]
  by_cases he : c.val * n + j.val = c'.val * n + j'.val
  · obtain ⟨rfl, rfl⟩ := pos_inj he
    rw [if_pos rfl, if_pos (by rw [flat_length]; exact pos_lt c j)]
    simp
  · rw [if_neg he, flat_get]
    by_cases hc : c' = c
    · subst hc
      have hj : j' ≠ j := fun h => he (by rw [h])
      simp [hj]
    · simp [hc]

theorem u32_pos (hs : k * n < 4294967296) (c : Fin k) (j : Fin n) : u32 (u32 (c.val * n) + j.val) = c.val * n + j.val := by
  have := pos_lt c j
  rw [u32_of_lt (x := c.val * n) (by omega), u32_of_lt (by omega)]

theorem cols_flat (hs : k * n < 4294967296) {g : Nat → R → Res R} {h : Fin n → R → R}
    (hg : ∀ (j : Fin n) b, g j.val b = .ok (h j b)) (c : Fin k) :
    ∀ (cnt i : Nat), i + cnt = n → ∀ m : Fin k → Fin n → R,
      cols g (u32 (c.val * n)) cnt i (flat m) =
        .ok (flat (Function.update m c fun j => if i ≤ j.val then h j (m c j) else m c j)) := by
  intro cnt
  induction cnt with
  | zero =>
    intro i hi m
    unfold cols
    have : (fun j : Fin n => if i ≤ j.val then h j (m c j) else m c j) = m c := by
      funext j
      have := j.2
      rw [if_neg (by omega)]
    rw [this, Function.update_eq_self]
  | succ cnt ih =>
    intro i hi m
    unfold cols
    have hin : i < n := by omega
    have e := u32_pos hs c ⟨i, hin⟩
    simp only at e
    rw [e, upd_flat (j := ⟨i, hin⟩) (hg ⟨i, hin⟩ (m c ⟨i, hin⟩))]
    simp only
    rw [ih (i + 1) (by omega)]
    simp only [Except.ok.injEq]
    congr 1
    funext c' j'
    by_cases hc : c' = c
    · subst hc
      simp only [Function.update_self]
      by_cases hj : j' = ⟨i, hin⟩
      · subst hj
        simp
      · have hj2 : j'.val ≠ i := fun h => hj (Fin.ext h)
        simp only [Function.update_of_ne hj]
        by_cases h1 : i ≤ j'.val
        · rw [if_pos h1, if_pos (by omega)]
        · rw [if_neg h1, if_neg (by omega)]
    · simp [Function.update_of_ne hc]

theorem cols_all (hs : k * n < 4294967296) {g : Nat → R → Res R} {h : Fin n → R → R}
    (hg : ∀ (j : Fin n) b, g j.val b = .ok (h j b)) (c : Fin k) (m : Fin k → Fin n → R) :
    cols g (u32 (c.val * n)) n 0 (flat m) = .ok (flat (Function.update m c fun j => h j (m c j))) := by
  rw [cols_flat hs hg c n 0 (by omega)]
  simp

theorem arg_ofFn (x : Fin n → R) (f : R → R → R) (j : Fin n) (b : R) : arg (List.ofFn x) f j.val b = .ok (f b (x j)) := by
  unfold arg
  rw [List.getElem?_ofFn, dif_pos j.2]

theorem ofFn_set {α : Type _} (f : Fin k → α) (c : Fin k) (y : α) :
    (List.ofFn f).set c.val y = List.ofFn (Function.update f c y) := by
  apply List.ext_getElem?
  intro i
  rw [List.getElem?_set]
  by_cases hi : i < k
  · rw [List.getElem?_ofFn, List.getElem?_ofFn, dif_pos hi, dif_pos hi]
    by_cases hc : c.val = i
    · have e : (⟨i, hi⟩ : Fin k) = c := Fin.ext hc.symm
      rw [if_pos hc, if_pos (by simp), e, Function.update_self]
    · have e : (⟨i, hi⟩ : Fin k) ≠ c := fun h => hc (by rw [← h])
      rw [if_neg hc, Function.update_of_ne e]
  · have hc : c.val ≠ i := by have := c.2; omega
    rw [if_neg hc, List.getElem?_ofFn, List.getElem?_ofFn, dif_neg hi, dif_neg hi]

theorem updNum_ofFn (f : Int → Int) (v : Fin k → Int) (c : Fin k) :
    updNum f c.val (List.ofFn v) = .ok (List.ofFn (Function.update v c (f (v c)))) := by
  unfold updNum
  rw [List.getElem?_ofFn, dif_pos c.2]
  simp only
  rw [ofFn_set]

/-- Cells after a change of one of them. -/
theorem obj_update (f : Fin k → Cell R n) (c : Fin k) (y : Cell R n) :
    obj (Function.update f c y) =
      { ncol := n, nclust := k, num := List.ofFn (Function.update (fun c => (f c).cnt) c y.cnt)
        complete := List.ofFn (Function.update (fun c => (f c).done) c y.done)
        means := flat (Function.update (fun c => (f c).sum) c y.sum) } := by
  unfold obj
  congr 1
  · congr 1; funext c'
    by_cases h : c' = c
    · subst h; simp
    · simp [h]
  · congr 1; funext c'
    by_cases h : c' = c
    · subst h; simp
    · simp [h]
  · congr 1; funext c'
    by_cases h : c' = c
    · subst h; simp
    · simp [h]

theorem member_obj (hs : k * n < 4294967296) (op : R → R → R) (d : Int) (f : Fin k → Cell R n) (x : Fin n → R)
    (c : Fin k) :
    member op d n (obj f) (List.ofFn x) c.val =
      .ok (obj (Function.update f c ⟨fun j => op ((f c).sum j) (x j), (f c).cnt + d, (f c).done⟩)) := by
  unfold member
  have e : (obj f).means = flat fun c => (f c).sum := rfl
  have e2 : (obj f).num = List.ofFn fun c => (f c).cnt := rfl
  have e3 : (obj f).ncol = n := rfl
  rw [e, e2, e3, cols_all hs (h := fun j b => op b (x j)) (arg_ofFn x op) c, updNum_ofFn, obj_update]
  have e4 : Function.update (fun c => (f c).done) c (f c).done = fun c => (f c).done := Function.update_eq_self c _
  simp only
  rw [e4]
  rfl

theorem swapCols_flat [Add R] [Sub R] (hs : k * n < 4294967296) (x : Fin n → R) (a b : Fin k) :
    ∀ (cnt i : Nat), i + cnt = n → ∀ m : Fin k → Fin n → R,
      swapCols (u32 (a.val * n)) (u32 (b.val * n)) ((List.ofFn x).drop i) i (flat m) =
        .ok (flat fun c j => if i ≤ j.val then
          (let y := if c = a then m c j - x j else m c j; if c = b then y + x j else y) else m c j) := by
  intro cnt
  induction cnt with
  | zero =>
    intro i hi m
    rw [List.drop_of_length_le (by simp; omega)]
    unfold swapCols
    simp only [Except.ok.injEq]
    congr 1
    funext c j
    have := j.2
    rw [if_neg (by omega)]
  | succ cnt ih =>
    intro i hi m
    have hin : i < n := by omega
    rw [List.drop_eq_getElem_cons (by simpa using hin), List.getElem_ofFn]
    unfold swapCols
    have ea := u32_pos hs a ⟨i, hin⟩
    have eb := u32_pos hs b ⟨i, hin⟩
    simp only at ea eb
    rw [ea, upd_flat (f := fun b => .ok (b - x ⟨i, hin⟩)) (c := a) (j := ⟨i, hin⟩)
      (y := m a ⟨i, hin⟩ - x ⟨i, hin⟩) rfl]
    simp only
    rw [eb, upd_flat (f := fun b => .ok (b + x ⟨i, hin⟩)) (c := b) (j := ⟨i, hin⟩) rfl]
    simp only
    rw [ih (i + 1) (by omega)]
    simp only [Except.ok.injEq]
    congr 1
    funext c j
    by_cases hj : j = ⟨i, hin⟩
    · subst hj
      rw [if_neg (by simp)]
      simp only [le_refl, if_true]
      by_cases hb : c = b
      · subst hb
        by_cases ha : c = a
        · subst ha
          simp
        · simp [ha]
      · by_cases ha : c = a
        · subst ha
          simp [hb]
        · simp [ha, hb]
    · have hj2 : j.val ≠ i := fun h => hj (Fin.ext h)
      have hm : (Function.update (Function.update m a (Function.update (m a) ⟨i, hin⟩ (m a ⟨i, hin⟩ - x ⟨i, hin⟩))) b
          (Function.update ((Function.update m a (Function.update (m a) ⟨i, hin⟩ (m a ⟨i, hin⟩ - x ⟨i, hin⟩))) b)
            ⟨i, hin⟩ ((Function.update m a (Function.update (m a) ⟨i, hin⟩ (m a ⟨i, hin⟩ - x ⟨i, hin⟩))) b ⟨i, hin⟩ +
              x ⟨i, hin⟩))) c j = m c j := by
        by_cases hb : c = b
        · subst hb
          by_cases ha : c = a
          · subst ha
            simp [hj]
          · simp [ha, hj]
        · by_cases ha : c = a
          · subst ha
            simp [hb, hj]
          · simp [ha, hb]
      rw [hm]
      by_cases h1 : i ≤ j.val
      · rw [if_pos h1, if_pos (by omega)]
      · rw [if_neg h1, if_neg (by omega)]

theorem copyAt_all {α : Type _} {x v : List α} (h : x.length = v.length) : copyAt x 0 v = .ok x := by
  unfold copyAt
  rw [if_pos (by omega), List.take_zero, List.nil_append, List.drop_of_length_le (by omega), List.append_nil]

theorem copyAt_flat (hs : k * n < 4294967296) (x : Fin n → R) (c : Fin k) (m : Fin k → Fin n → R) :
    copyAt (List.ofFn x) (u32 (c.val * n)) (flat m) = .ok (flat (Function.update m c x)) := by
  have hle : c.val * n + n ≤ k * n := by
    have h1 : (c.val + 1) * n ≤ k * n := Nat.mul_le_mul_right n c.2
    rw [Nat.add_mul, Nat.one_mul] at h1
    exact h1
  have e : u32 (c.val * n) = c.val * n ∨ n = 0 := by
    rcases Nat.eq_zero_or_pos n with h | h
    · exact Or.inr h
    · exact Or.inl (u32_of_lt (by omega))
  rcases e with e | rfl
  · unfold copyAt
    rw [e, if_pos (by simpa using hle)]
    simp only [Except.ok.injEq]
    apply flat_ext
    · simp; omega
    · intro c' j'
      have hj := j'.2
      rw [List.append_assoc, List.getElem?_append]
      have htl : ((flat m).take (c.val * n)).length = c.val * n := by simp
      rw [htl]
      rcases Nat.lt_trichotomy c'.val c.val with h | h | h
      · have h1 : (c'.val + 1) * n ≤ c.val * n := Nat.mul_le_mul_right n h
        rw [Nat.add_mul, Nat.one_mul] at h1
        have hne : c' ≠ c := fun he => by rw [he] at h; omega
        rw [if_pos (by omega), List.getElem?_take, if_pos (by omega), flat_get, Function.update_of_ne hne]
      · have hne : c' = c := Fin.ext h
        subst hne
        rw [if_neg (by omega), List.getElem?_append, if_pos (by simp), Nat.add_sub_cancel_left, List.getElem?_ofFn,
          dif_pos j'.2, Function.update_self]
      · have h1 : (c.val + 1) * n ≤ c'.val * n := Nat.mul_le_mul_right n h
        rw [Nat.add_mul, Nat.one_mul] at h1
        have hne : c' ≠ c := fun he => by rw [he] at h; omega
        rw [if_neg (by omega), List.getElem?_append, if_neg (by simp; omega), List.getElem?_drop, List.length_ofFn,
          Function.update_of_ne hne, ← flat_get m c' j']
        congr 1
        omega
  · unfold copyAt
    have hz : ∀ m : Fin k → Fin 0 → R, flat m = [] := fun m => List.length_eq_zero_iff.1 (by simp)
    rw [hz, hz]
    simp [u32]

theorem zipWith_flat (f : R → R → R) (a b : Fin k → Fin n → R) :
    List.zipWith f (flat a) (flat b) = flat fun c j => f (a c j) (b c j) := by
  apply flat_ext (by simp)
  intro c j
  rw [List.getElem?_zipWith, flat_get, flat_get]

theorem zipWith_ofFn {α : Type _} (f : α → α → α) (a b : Fin k → α) :
    List.zipWith f (List.ofFn a) (List.ofFn b) = List.ofFn fun c => f (a c) (b c) := by
  apply List.ext_getElem?
  intro i
  rw [List.getElem?_zipWith]
  by_cases hi : i < k
  · simp [hi]
  · simp [hi]

theorem addAll_eq {α : Type _} (f : α → α → α) (v w : List α) (h : v.length = w.length) :
    addAll f v.length v w = .ok (List.zipWith f v w) := by
  unfold addAll
  rw [if_neg (by omega), List.take_length, List.drop_length, List.append_nil]

theorem forClusters_obj {op : Obj R → Nat → Res (Obj R)} {φ : Cell R n → Cell R n}
    (h : ∀ (f : Fin k → Cell R n) (c : Fin k), op (obj f) c.val = .ok (obj (Function.update f c (φ (f c))))) :
    ∀ (cnt i : Nat), i + cnt = k → ∀ f : Fin k → Cell R n,
      forClusters op cnt i (obj f) = .ok (obj fun c => if i ≤ c.val then φ (f c) else f c) := by
  intro cnt
  induction cnt with
  | zero =>
    intro i hi f
    unfold forClusters
    simp only [Except.ok.injEq]
    congr 1
    funext c
    have := c.2
    rw [if_neg (by omega)]
  | succ cnt ih =>
    intro i hi f
    have hik : i < k := by omega
    unfold forClusters
    have := h f ⟨i, hik⟩
    simp only at this
    rw [this]
    simp only
    rw [ih (i + 1) (by omega)]
    simp only [Except.ok.injEq]
    congr 1
    funext c
    by_cases hc : c = ⟨i, hik⟩
    · subst hc; simp
    · have hc2 : c.val ≠ i := fun h => hc (Fin.ext h)
      rw [Function.update_of_ne hc]
      by_cases h1 : i ≤ c.val
      · rw [if_pos h1, if_pos (by omega)]
      · rw [if_neg h1, if_neg (by omega)]

theorem finalize_obj [Div R] [IntCast R] (hs : k * n < 4294967296) (f : Fin k → Cell R n) (c : Fin k) :
    finalize (obj f) c.val = .ok (obj (Function.update f c (f c).finalize)) := by
  unfold finalize
  have e1 : (obj f).complete[c.val]? = some (f c).done := by
    change (List.ofFn _)[c.val]? = _
    rw [List.getElem?_ofFn, dif_pos c.2]
  have e2 : (obj f).num[c.val]? = some (f c).cnt := by
    change (List.ofFn _)[c.val]? = _
    rw [List.getElem?_ofFn, dif_pos c.2]
  rw [e1, e2]
  simp only
  by_cases hd : (f c).done
  · have : (f c).finalize = f c := by unfold Cell.finalize; rw [if_pos hd]
    rw [if_pos hd, this, Function.update_eq_self]
  · rw [if_neg hd]
    have em : (obj f).means = flat fun c => (f c).sum := rfl
    have en : (obj f).ncol = n := rfl
    have ec : (obj f).complete.set c.val true = List.ofFn (Function.update (fun c => (f c).done) c true) := by
      change (List.ofFn _).set _ _ = _
      rw [ofFn_set]
    have hf : (f c).finalize = ⟨fun j => if (f c).cnt > 1 then (f c).sum j / ((f c).cnt : R) else (f c).sum j,
        (f c).cnt, true⟩ := by unfold Cell.finalize; rw [if_neg hd]
    rw [em, en, ec, hf, obj_update]
    have ecnt : (Function.update (fun c => (f c).cnt) c (f c).cnt) = fun c => (f c).cnt := Function.update_eq_self c _
    rw [ecnt]
    by_cases hc : (f c).cnt > 1
    · simp only [if_pos hc]
      rw [cols_all hs (h := fun _ b => b / ((f c).cnt : R)) (fun _ _ => rfl) c]
      rfl
    · simp only [if_neg hc]
      have : (Function.update (fun c => (f c).sum) c fun j => (f c).sum j) = fun c => (f c).sum :=
        Function.update_eq_self c _
      rw [this]
      rfl

theorem unfinalize_obj [Mul R] [IntCast R] (hs : k * n < 4294967296) (f : Fin k → Cell R n) (c : Fin k) :
    unfinalize (obj f) c.val = .ok (obj (Function.update f c (f c).unfinalize)) := by
  unfold unfinalize
  have e1 : (obj f).complete[c.val]? = some (f c).done := by
    change (List.ofFn _)[c.val]? = _
    rw [List.getElem?_ofFn, dif_pos c.2]
  have e2 : (obj f).num[c.val]? = some (f c).cnt := by
    change (List.ofFn _)[c.val]? = _
    rw [List.getElem?_ofFn, dif_pos c.2]
  rw [e1, e2]
  simp only
  by_cases hd : (f c).done
  · rw [if_neg (by simp [hd])]
    have em : (obj f).means = flat fun c => (f c).sum := rfl
    have en : (obj f).ncol = n := rfl
    have ec : (obj f).complete.set c.val false = List.ofFn (Function.update (fun c => (f c).done) c false) := by
      change (List.ofFn _).set _ _ = _
      rw [ofFn_set]
    have hf : (f c).unfinalize = ⟨fun j => if (f c).cnt < 2 then (f c).sum j else (f c).sum j * ((f c).cnt : R),
        (f c).cnt, false⟩ := by unfold Cell.unfinalize; rw [if_pos hd]
    rw [em, en, ec, hf, obj_update]
    have ecnt : (Function.update (fun c => (f c).cnt) c (f c).cnt) = fun c => (f c).cnt := Function.update_eq_self c _
    rw [ecnt]
    by_cases hc : (f c).cnt < 2
    · simp only [if_pos hc]
      have : (Function.update (fun c => (f c).sum) c fun j => (f c).sum j) = fun c => (f c).sum :=
        Function.update_eq_self c _
      rw [this]
      rfl
    · simp only [if_neg hc]
      rw [Nat.mul_comm n c.val, cols_all hs (h := fun _ b => b * ((f c).cnt : R)) (fun _ _ => rfl) c]
      rfl
  · have : (f c).unfinalize = f c := by unfold Cell.unfinalize; rw [if_neg hd]
    rw [if_pos (by simp [hd]), this, Function.update_eq_self]

theorem setComplete_obj (f : Fin k → Cell R n) (c : Fin k) (b : Bool) :
    setComplete (obj f) c.val b = .ok (obj (Function.update f c { f c with done := b })) := by
  unfold setComplete
  have e : (obj f).complete = List.ofFn fun c => (f c).done := rfl
  rw [e, if_pos (by simp), ofFn_set, obj_update]
  simp only [Function.update_eq_self]
  have e1 : (Function.update (fun c => (f c).cnt) c (f c).cnt) = fun c => (f c).cnt := Function.update_eq_self c _
  have e2 : (Function.update (fun c => (f c).sum) c (f c).sum) = fun c => (f c).sum := Function.update_eq_self c _
  rfl

theorem create_obj [Zero R] (hs : k * n < 4294967296) : (create k n : Obj R) = obj fun _ : Fin k => (Cell.zero : Cell R n) := by
  unfold create obj
  congr 1
  · simp [Cell.zero, List.ofFn_const]
  · simp [Cell.zero, List.ofFn_const]
  · rw [Nat.mul_comm, u32_of_lt hs]
    simp [flat, Cell.zero, List.ofFn_const]

theorem upd_fn {α : Type _} (f : Fin k → α) (c : Fin k) (y : α) (g : Fin k → α) (h1 : g c = y)
    (h2 : ∀ c', c' ≠ c → g c' = f c') : Function.update f c y = g := by
  funext c'
  by_cases h : c' = c
  · subst h; rw [Function.update_self, h1]
  · rw [Function.update_of_ne h, h2 c' h]

theorem setMeans_eq [Zero R] (hs : k * n < 4294967296) (s : Obj R) (h1 : s.ncol = n) (h2 : s.nclust = k)
    (m : Fin k → Fin n → R) : setMeans s (flat m) = .ok { s with means := flat m } := by
  unfold setMeans
  rw [h1, h2, Nat.mul_comm n k, u32_of_lt hs]
  simp only [flat_length, lt_irrefl, if_false]
  rw [List.take_of_length_le (by simp)]
  have hl : (flat m).length =
      (if s.means.length = k * n then s.means
        else s.means.take (k * n) ++ List.replicate (k * n - s.means.length) 0).length := by
    split
    · simp [*]
    · simp; omega
  rw [copyAt_all hl]

theorem createWith_obj [Zero R] (hs : k * n < 4294967296) (m : Fin k → Fin n → R) :
    createWith k n (flat m) = .ok (obj fun c => ⟨m c, 0, true⟩) := by
  unfold createWith
  rw [setMeans_eq hs _ rfl rfl]
  simp only [Except.ok.injEq]
  unfold obj
  simp [List.ofFn_const]

theorem scale_obj [One R] [Sub R] [Add R] [Mul R] (hs : k * n < 4294967296) (f : Fin k → Cell R n) (factor : R)
    (c : Fin k) (x : Fin n → R) :
    scaleCentroid (obj f) factor c.val (List.ofFn x) =
      .ok (obj (Function.update f c { f c with sum := fun j => (1 - factor) * (f c).sum j + factor * x j })) := by
  unfold scaleCentroid
  have e0 : (obj f).nclust = k := rfl
  have em : (obj f).means = flat fun c => (f c).sum := rfl
  have en : (obj f).ncol = n := rfl
  have hc := c.2
  rw [e0, if_neg (by omega), em, en, Nat.mul_comm n c.val,
    cols_all hs (h := fun j b => (1 - factor) * b + factor * x j) (arg_ofFn x _) c, obj_update]
  have e1 : Function.update (fun c => (f c).done) c (f c).done = fun c => (f c).done := Function.update_eq_self c _
  have e2 : Function.update (fun c => (f c).cnt) c (f c).cnt = fun c => (f c).cnt := Function.update_eq_self c _
  simp only
  rw [e1, e2]
  rfl

theorem set_obj {x : Fin n → R} {c : Fin k} (f : Fin k → Cell R n) :
    ({ obj f with means := flat (Function.update (fun c => (f c).sum) c x) } : Obj R) =
      obj (Function.update f c { f c with sum := x }) := by
  rw [obj_update]
  have e1 : Function.update (fun c => (f c).done) c (f c).done = fun c => (f c).done := Function.update_eq_self c _
  have e2 : Function.update (fun c => (f c).cnt) c (f c).cnt = fun c => (f c).cnt := Function.update_eq_self c _
  simp only
  rw [e1, e2]
  rfl

theorem plusEq_obj [Add R] (hs : k * n < 4294967296) (f o : Fin k → Cell R n) :
    plusEq (obj f) (obj o) = .ok (obj fun c => (f c).plus (o c)) := by
  unfold plusEq
  have em : (obj f).means = flat fun c => (f c).sum := rfl
  have em2 : (obj o).means = flat fun c => (o c).sum := rfl
  have en : (obj f).num = List.ofFn fun c => (f c).cnt := rfl
  have en2 : (obj o).num = List.ofFn fun c => (o c).cnt := rfl
  have ek : (obj f).nclust = (List.ofFn fun c => (f c).cnt).length := by rw [List.length_ofFn]; rfl
  have el : u32 (flat fun c => (f c).sum).length = (flat fun c => (f c).sum).length := by
    rw [flat_length, u32_of_lt hs]
  rw [em, em2, el, addAll_eq _ _ _ (by simp), en, en2, ek, addAll_eq _ _ _ (by simp), zipWith_flat, zipWith_ofFn]
  simp only [List.length_ofFn]
  rfl

/-! ## Histories -/

theorem update_if (f : Fin k → Cell R n) (a : Fin k) (φ : Cell R n → Cell R n) :
    Function.update f a (φ (f a)) = fun c => if c = a then φ (f c) else f c := by
  funext c
  by_cases h : c = a
  · subst h; simp
  · simp [h]

theorem addMember_obj [Add R] (hs : k * n < 4294967296) (f : Fin k → Cell R n) (x : Fin n → R) (c : Fin k) :
    addMember (obj f) (List.ofFn x) c.val = .ok (obj fun a => if a = c then (f a).add x else f a) := by
  have h := member_obj hs (· + ·) 1 f x c
  unfold addMember
  have en : (obj f).ncol = n := rfl
  rw [en, h, ← update_if f c fun s => s.add x]
  rfl

theorem removeMember_obj [Sub R] (hs : k * n < 4294967296) (f : Fin k → Cell R n) (x : Fin n → R) (c : Fin k) :
    removeMember (obj f) (List.ofFn x) c.val = .ok (obj fun a => if a = c then (f a).remove x else f a) := by
  have h := member_obj hs (· - ·) (-1) f x c
  unfold removeMember
  have en : (obj f).ncol = n := rfl
  rw [en, h, ← update_if f c fun s => s.remove x]
  rfl

theorem doCall_obj [Zero R] [One R] [Add R] [Sub R] [Mul R] [Div R] [IntCast R] (hk : k < 4294967296)
    (hs : k * n < 4294967296)
    (f : Fin k → Cell R n) (call : Call R k n) :
    doCall (obj f) call = .ok (obj fun c => call.on c (f c)) := by
  have em : (obj f).means = flat fun c => (f c).sum := rfl
  have enm : (obj f).num = List.ofFn fun c => (f c).cnt := rfl
  have en : (obj f).ncol = n := rfl
  have ek : (obj f).nclust = k := rfl
  cases call with
  | add x c => exact addMember_obj hs f x c
  | addIt x c =>
    have := addMember_obj hs f x c
    unfold addMember at this
    rw [en] at this
    simp only [doCall, addIter, List.length_ofFn]
    exact this
  | remove x c => exact removeMember_obj hs f x c
  | removeIt x c =>
    have := removeMember_obj hs f x c
    unfold removeMember at this
    rw [en] at this
    simp only [doCall, removeIter, List.length_ofFn]
    exact this
  | swap x a b =>
    simp only [doCall, swapMembership]
    rw [removeMember_obj hs f x a]
    simp only
    rw [addMember_obj hs]
    rfl
  | swapIt x a b =>
    simp only [doCall, swapIter]
    have h := swapCols_flat hs x a b n 0 (by omega) fun c => (f c).sum
    rw [List.drop_zero] at h
    rw [en, em, h]
    simp only
    rw [enm, updNum_ofFn]
    simp only
    rw [updNum_ofFn]
    simp only [Except.ok.injEq]
    unfold obj
    congr 1
    · congr 1
      funext c
      simp only [Call.on]
      by_cases hb : c = b
      · subst hb
        by_cases ha : c = a
        · subst ha; simp [Cell.add, Cell.remove, Int.sub_eq_add_neg]
        · simp [ha, Cell.add]
      · by_cases ha : c = a
        · subst ha; simp [hb, Cell.remove, Int.sub_eq_add_neg]
        · simp [ha, hb]
    · change List.ofFn (fun c => (f c).done) = _
      congr 1
      funext c
      simp only [Call.on]
      by_cases hb : c = b <;> by_cases ha : c = a <;> simp [ha, hb, Cell.add, Cell.remove] <;> split <;> simp
    · congr 1
      funext c j
      simp only [Call.on]
      by_cases hb : c = b
      · subst hb
        by_cases ha : c = a
        · subst ha; simp [Cell.add, Cell.remove]
        · simp [ha, Cell.add]
      · by_cases ha : c = a
        · subst ha; simp [hb, Cell.remove]
        · simp [ha, hb]
  | setMean x c =>
    simp only [doCall, setMean]
    rw [en, if_neg (by simp), List.take_of_length_le (by simp), em, copyAt_flat hs]
    simp only [Call.on]
    have e1 := set_obj (x := x) (c := c) f
    rw [update_if f c fun s => { s with sum := x }] at e1
    exact congrArg Except.ok e1
  | setMeanVec x c =>
    simp only [doCall, setMeanVec]
    rw [en, em, copyAt_flat hs]
    simp only [Call.on]
    have e1 := set_obj (x := x) (c := c) f
    rw [update_if f c fun s => { s with sum := x }] at e1
    exact congrArg Except.ok e1
  | setMeans m =>
    simp only [doCall]
    rw [setMeans_eq hs _ en ek]
    rfl
  | setNum v =>
    simp only [doCall, setNum]
    rw [ek, if_neg (by simp), List.take_of_length_le (by simp), enm, copyAt_all (by simp)]
    rfl
  | setComplete c b =>
    simp only [doCall]
    rw [setComplete_obj, update_if f c fun s => { s with done := b }]
    rfl
  | setCompleteAll b =>
    simp only [doCall, setCompleteAll]
    rw [ek, forClusters_obj (φ := fun s => { s with done := b }) (fun f c => setComplete_obj f c b) k 0 (by omega)]
    simp [Call.on]
  | finalize c =>
    simp only [doCall]
    rw [finalize_obj hs, update_if f c fun s => s.finalize]
    rfl
  | unfinalize c =>
    simp only [doCall]
    rw [unfinalize_obj hs, update_if f c fun s => s.unfinalize]
    rfl
  | finalizeAll =>
    simp only [doCall, finalizeAll]
    rw [ek, forClusters_obj (φ := fun s => s.finalize) (fun f c => finalize_obj hs f c) k 0 (by omega)]
    simp [Call.on]
  | unfinalizeAll =>
    simp only [doCall, unfinalizeAll]
    rw [ek, forClusters_obj (φ := fun s => s.unfinalize) (fun f c => unfinalize_obj hs f c) k 0 (by omega)]
    simp [Call.on]
  | plusEq o => exact plusEq_obj hs f o
  | peq o =>
    simp only [doCall, peq]
    have : (obj o).means = flat fun c => (o c).sum := rfl
    rw [em, this, flat_length, flat_length, if_neg (by simp)]
    exact plusEq_obj hs f o
  | meansPeq m =>
    simp only [doCall, meansPeq]
    rw [em]
    have el : u32 (flat fun c => (f c).sum).length = (flat fun c => (f c).sum).length := by
      rw [flat_length, u32_of_lt hs]
    rw [el, addAll_eq _ _ _ (by simp), zipWith_flat]
    rfl
  | numPeq v =>
    simp only [doCall, numPeq]
    rw [enm]
    have hl : u32 (List.ofFn fun c => (f c).cnt).length = (List.ofFn fun c => (f c).cnt).length := by
      rw [List.length_ofFn, u32_of_lt hk]
    rw [hl, addAll_eq _ _ _ (by simp), zipWith_ofFn]
    rfl
  | scale factor c x =>
    simp only [doCall]
    rw [scale_obj hs, update_if f c fun s => { s with sum := fun j => (1 - factor) * s.sum j + factor * x j }]
    rfl
  | clear =>
    simp only [doCall, clear, Except.ok.injEq]
    unfold obj
    congr 1
    · apply List.ext_getElem <;> simp [Call.on, Cell.zero]
    · apply List.ext_getElem <;> simp [Call.on, Cell.zero]
    · apply flat_ext (by simp)
      intro c j
      rw [List.getElem?_map, flat_get]
      simp [Call.on, Cell.zero]

theorem exec_obj [Zero R] [One R] [Add R] [Sub R] [Mul R] [Div R] [IntCast R] (hk : k < 4294967296)
    (hs : k * n < 4294967296) (h : List (Call R k n)) (f : Fin k → Cell R n) :
    exec (obj f) h = .ok (obj fun c => h.foldl (fun s call => call.on c s) (f c)) := by
  induction h generalizing f with
  | nil => rfl
  | cons call h ih =>
    simp only [exec, List.foldl_cons]
    rw [doCall_obj hk hs]
    simp only
    rw [ih]

theorem getMean_obj (f : Fin k → Cell R n) (c : Fin k) (j : Fin n) : getMean (obj f) c.val j.val = .ok ((f c).sum j) := by
  unfold getMean
  have em : (obj f).means = flat fun c => (f c).sum := rfl
  have en : (obj f).ncol = n := rfl
  rw [em, en, flat_get]

theorem getNum_obj (f : Fin k → Cell R n) (c : Fin k) : getNum (obj f) c.val = .ok (f c).cnt := by
  unfold getNum
  have em : (obj f).num = List.ofFn fun c => (f c).cnt := rfl
  rw [em, List.getElem?_ofFn, dif_pos c.2]

theorem isComplete_obj (f : Fin k → Cell R n) (c : Fin k) : isComplete (obj f) c.val = .ok (f c).done := by
  unfold isComplete
  have em : (obj f).complete = List.ofFn fun c => (f c).done := rfl
  rw [em, List.getElem?_ofFn, dif_pos c.2]

/-! ## The growing variant -/

theorem ofFn_grow {α : Type _} {K L : Nat} (hKL : K ≤ L) (F : Nat → α) (z : α) (hz : ∀ c, K ≤ c → F c = z) :
    (List.ofFn fun c : Fin K => F c.val) ++ List.replicate (L - K) z = List.ofFn fun c : Fin L => F c.val := by
  apply List.ext_getElem
  · simp; omega
  · intro i h1 h2
    simp only [List.getElem_ofFn]
    rw [List.getElem_append]
    split
    · simp
    · rename_i h
      rw [List.length_ofFn] at h
      rw [List.getElem_replicate, hz i (by omega)]

theorem flat_grow {K L : Nat} (hKL : K ≤ L) (F : Nat → Fin n → R) (z : R) (hz : ∀ c, K ≤ c → ∀ j, F c j = z) :
    (flat fun c : Fin K => F c.val) ++ List.replicate (L * n - K * n) z = flat fun c : Fin L => F c.val := by
  have hle : K * n ≤ L * n := Nat.mul_le_mul_right n hKL
  apply flat_ext
  · simp; omega
  · intro c j
    have hp := pos_lt c j
    rw [List.getElem?_append, flat_length]
    by_cases hc : c.val < K
    · have := flat_get (fun c : Fin K => F c.val) ⟨c.val, hc⟩ j
      have hp2 := pos_lt (⟨c.val, hc⟩ : Fin K) j
      simp only at this hp2
      rw [if_pos hp2, this]
    · have h1 : K * n ≤ c.val * n := Nat.mul_le_mul_right n (by omega)
      rw [if_neg (by omega), List.getElem?_replicate, if_pos (by omega), hz c.val (by omega)]

/-- The object that stores the first `K` cells. -/
def objN (K : Nat) (F : Nat → Cell R n) : Obj R := obj fun c : Fin K => F c.val

theorem resize_objN [Zero R] {K idx : Nat} (hi : K ≤ idx) (hb : idx + 1 < 4294967296) (hs : K * n < 4294967296)
    (F : Nat → Cell R n) (hz : ∀ c, K ≤ c → F c = Cell.zero) : resize (objN K F) idx = .ok (objN (idx + 1) F) := by
  unfold resize objN
  have em : (obj fun c : Fin K => F c.val).means = flat fun c : Fin K => (F c.val).sum := rfl
  have enm : (obj fun c : Fin K => F c.val).num = List.ofFn fun c : Fin K => (F c.val).cnt := rfl
  have ec : (obj fun c : Fin K => F c.val).complete = List.ofFn fun c : Fin K => (F c.val).done := rfl
  have en : (obj fun c : Fin K => F c.val).ncol = n := rfl
  have ek : (obj fun c : Fin K => F c.val).nclust = K := rfl
  rw [em, enm, ec, en, ek, if_neg (by simp [u32_of_lt hs]), flat_length,
    ofFn_grow (Nat.le_succ_of_le hi) (fun c => (F c).cnt) 0 (fun c hc => by rw [hz c hc]; rfl),
    ofFn_grow (Nat.le_succ_of_le hi) (fun c => (F c).done) false (fun c hc => by rw [hz c hc]; rfl),
    flat_grow (Nat.le_succ_of_le hi) (fun c => (F c).sum) 0 (fun c hc j => by rw [hz c hc]; rfl), u32_of_lt hb]
  rfl

theorem addMember_objN [Add R] {K : Nat} (hs : K * n < 4294967296) (F : Nat → Cell R n) (x : Fin n → R) {c : Nat}
    (hc : c < K) :
    addMember (objN K F) (List.ofFn x) c = .ok (objN K fun a => if a = c then (F a).add x else F a) := by
  unfold objN
  have := addMember_obj hs (fun c : Fin K => F c.val) x ⟨c, hc⟩
  simp only [Fin.ext_iff] at this
  exact this

theorem setComplete_objN {K : Nat} (F : Nat → Cell R n) (b : Bool) {c : Nat} (hc : c < K) :
    setComplete (objN K F) c b = .ok (objN K fun a => if a = c then { F a with done := b } else F a) := by
  unfold objN
  have := setComplete_obj (fun c : Fin K => F c.val) ⟨c, hc⟩ b
  rw [update_if (fun c : Fin K => F c.val) ⟨c, hc⟩ fun s => { s with done := b }] at this
  simp only [Fin.ext_iff] at this
  exact this

theorem addAll_prefix {K k : Nat} (hk : k ≤ K) [Add R] (m : Nat → Fin n → R) (o : Fin k → Fin n → R) :
    addAll (· + ·) (k * n) (flat fun c : Fin K => m c.val) (flat o) =
      .ok (flat fun c : Fin K => fun j => if h : c.val < k then m c.val j + o ⟨c.val, h⟩ j else m c.val j) := by
  have hle : k * n ≤ K * n := Nat.mul_le_mul_right n hk
  unfold addAll
  rw [if_neg (by simp; omega)]
  simp only [Except.ok.injEq]
  have htl : (List.zipWith (· + ·) ((flat fun c : Fin K => m c.val).take (k * n)) (flat o)).length = k * n := by
    simp; omega
  apply flat_ext
  · rw [List.length_append, htl, List.length_drop, flat_length]; omega
  · intro c j
    have hp := pos_lt c j
    rw [List.getElem?_append, htl]
    by_cases hc : c.val < k
    · have hp2 := pos_lt (⟨c.val, hc⟩ : Fin k) j
      have h1 := flat_get o ⟨c.val, hc⟩ j
      simp only at hp2 h1
      rw [if_pos hp2, List.getElem?_zipWith, List.getElem?_take, if_pos hp2, flat_get, h1]
      simp [hc]
    · have h1 : k * n ≤ c.val * n := Nat.mul_le_mul_right n (by omega)
      rw [if_neg (by omega), List.getElem?_drop, dif_neg hc, ← flat_get (fun c : Fin K => m c.val) c j]
      congr 1
      omega

theorem numsSparse_objN {K k : Nat} (hk : k ≤ K) (v : Fin k → Int) (s0 : Obj R) (h0 : s0.nclust = K) :
    ∀ (cnt i : Nat), i + cnt = k → ∀ w : Nat → Int,
      numsSparse (List.ofFn v) cnt i { s0 with num := List.ofFn fun c : Fin K => w c.val } =
        .ok { s0 with num := List.ofFn fun c : Fin K =>
          if h : i ≤ c.val ∧ c.val < k then w c.val + v ⟨c.val, h.2⟩ else w c.val } := by
  intro cnt
  induction cnt with
  | zero =>
    intro i hi w
    unfold numsSparse
    simp only [Except.ok.injEq]
    congr 2
    funext c
    rw [dif_neg (by omega)]
  | succ cnt ih =>
    intro i hi w
    unfold numsSparse
    have hik : i < k := by omega
    rw [List.getElem?_ofFn, dif_pos hik]
    simp only
    unfold numSparse
    simp only
    rw [h0, if_neg (by omega)]
    have hu := updNum_ofFn (· + v ⟨i, hik⟩) (fun c : Fin K => w c.val) ⟨i, by omega⟩
    simp only at hu
    rw [hu]
    simp only
    have e : (Function.update (fun c : Fin K => w c.val) ⟨i, by omega⟩ (w i + v ⟨i, hik⟩)) =
        fun c : Fin K => (fun a => if a = i then w i + v ⟨i, hik⟩ else w a) c.val := by
      funext c
      by_cases h : c.val = i
      · have : c = ⟨i, by omega⟩ := Fin.ext h
        rw [this]; simp
      · have : c ≠ ⟨i, by omega⟩ := fun he => h (by rw [he])
        simp [this, h]
    rw [e]
    have := ih (i + 1) (by omega) (fun a => if a = i then w i + v ⟨i, hik⟩ else w a)
    rw [← h0] at this ⊢
    rw [this]
    simp only [Except.ok.injEq]
    congr 2
    funext c
    by_cases h : c.val = i
    · rw [dif_neg (by omega), dif_pos (by omega)]
      simp [h]
    · by_cases h1 : i + 1 ≤ c.val ∧ c.val < k
      · rw [dif_pos h1, dif_pos (by omega)]
        simp [h]
      · rw [dif_neg h1, dif_neg (by omega)]
        simp [h]

theorem doGCall_objN [Zero R] [Add R] {K : Nat} (hn : 0 < n) (F : Nat → Cell R n)
    (hz : ∀ c, K ≤ c → F c = Cell.zero) (call : GCall R n) (hs : room n K call * n < 4294967296) :
    doGCall (objN K F) call = .ok (objN (room n K call) fun c => call.on c (F c)) ∧
      (∀ c, room n K call ≤ c → call.on c (F c) = Cell.zero) ∧ K ≤ room n K call := by
  have ek : ∀ F : Nat → Cell R n, (objN K F).nclust = K := fun _ => rfl
  have hbig : ∀ L, L * n < 4294967296 → L < 4294967296 := fun L h =>
    lt_of_le_of_lt (Nat.le_mul_of_pos_right L hn) h
  cases call with
  | add x c =>
    simp only [room] at hs ⊢
    refine ⟨?_, fun a ha => ?_, le_max_left _ _⟩
    · simp only [doGCall, addSparse, GCall.on]
      rw [ek]
      by_cases hc : K ≤ c
      · have e : max K (c + 1) = c + 1 := by omega
        rw [e] at hs ⊢
        have hKs : K * n < 4294967296 := lt_of_le_of_lt (Nat.mul_le_mul_right n (by omega : K ≤ c + 1)) hs
        rw [if_pos hc, resize_objN hc (hbig _ hs) hKs F hz]
        exact addMember_objN hs F x (by omega)
      · have e : max K (c + 1) = K := by omega
        rw [e] at hs ⊢
        rw [if_neg hc]
        exact addMember_objN hs F x (by omega)
    · simp only [GCall.on]
      rw [if_neg (by omega), hz a (by omega)]
  | setComplete c b =>
    simp only [room] at hs ⊢
    refine ⟨?_, fun a ha => ?_, le_max_left _ _⟩
    · simp only [doGCall, setCompleteSparse, GCall.on]
      rw [ek]
      by_cases hc : K ≤ c
      · have e : max K (c + 1) = c + 1 := by omega
        rw [e] at hs ⊢
        have hKs : K * n < 4294967296 := lt_of_le_of_lt (Nat.mul_le_mul_right n (by omega : K ≤ c + 1)) hs
        rw [if_pos hc, resize_objN hc (hbig _ hs) hKs F hz]
        exact setComplete_objN F b (by omega)
      · have e : max K (c + 1) = K := by omega
        rw [e] at hs ⊢
        rw [if_neg hc]
        exact setComplete_objN F b (by omega)
    · simp only [GCall.on]
      rw [if_neg (by omega), hz a (by omega)]
  | peq k o =>
    simp only [room] at hs ⊢
    have hkn : k ≤ k * n := Nat.le_mul_of_pos_right k hn
    have hK' : K ≤ (if K < k then k * n + 1 else K) ∧ k ≤ (if K < k then k * n + 1 else K) := by split <;> omega
    refine ⟨?_, fun a ha => ?_, hK'.1⟩
    · simp only [doGCall, peqSparse]
      have em : (objN K F).means = flat fun c : Fin K => (F c.val).sum := rfl
      have em2 : (obj o).means = flat fun c => (o c).sum := rfl
      have en2 : (obj o).num = List.ofFn fun c => (o c).cnt := rfl
      have ek2 : (obj o).nclust = k := rfl
      have hr : (if (objN K F).means.length < (obj o).means.length then resize (objN K F) (obj o).means.length
          else .ok (objN K F)) = .ok (objN (if K < k then k * n + 1 else K) F) := by
        rw [em, em2, flat_length, flat_length]
        by_cases h : K < k
        · have h1 : K * n < k * n := Nat.mul_lt_mul_of_pos_right h hn
          rw [if_pos h] at hs
          rw [if_pos h, if_pos h1]
          have hKs : K * n < 4294967296 := lt_of_le_of_lt (Nat.mul_le_mul_right n (by omega : K ≤ k * n + 1)) hs
          exact resize_objN (by omega) (hbig _ hs) hKs F hz
        · have h1 : ¬ K * n < k * n := by
            have := Nat.mul_le_mul_right n (Nat.le_of_not_lt h)
            omega
          rw [if_neg h, if_neg h1]
      rw [hr]
      simp only
      generalize (if K < k then k * n + 1 else K) = L at *
      have em3 : (objN L F).means = flat fun c : Fin L => (F c.val).sum := rfl
      rw [em2, flat_length, em3, addAll_prefix hK'.2 (fun c => (F c).sum)]
      simp only
      rw [en2, ek2]
      have hh := numsSparse_objN hK'.2 (fun c => (o c).cnt)
        { objN L F with means := flat fun c : Fin L => fun j =>
            if h : c.val < k then (F c.val).sum j + (o ⟨c.val, h⟩).sum j else (F c.val).sum j } rfl k 0 (by omega)
        fun c => (F c).cnt
      refine Eq.trans hh ?_
      simp only [Except.ok.injEq]
      unfold objN obj
      congr 1
      · congr 1
        funext c
        simp only [GCall.on]
        by_cases hc : c.val < k
        · simp [hc, Cell.plus]
        · simp [hc]
      · change List.ofFn (fun c : Fin L => (F c.val).done) = _
        congr 1
        funext c
        simp only [GCall.on]
        by_cases hc : c.val < k
        · simp [hc, Cell.plus]
        · simp [hc]
      · congr 1
        funext c j
        simp only [GCall.on]
        by_cases hc : c.val < k
        · simp [hc, Cell.plus]
        · simp [hc]
    · simp only [GCall.on]
      rw [dif_neg (by omega), hz a (by omega)]

end Knor.Flat
