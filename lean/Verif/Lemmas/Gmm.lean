import Mathlib.Tactic.Linarith
import Mathlib.Algebra.Order.Field.Basic
import Mathlib.Algebra.Order.BigOperators.Group.List
import Mathlib.Data.List.FinRange
import Verif.Lemmas.Init
import Verif.Lemmas.Partition
import Verif.Spec.Ieee

/-! # Lemmas about the Gaussian-mixture model -/

namespace Knor.Gmm

open Knor Knor.Spec

variable {F S : Type _} {k n : Nat}

/-! ## Classes of values -/

/-- Zero or NaN. -/
def IsZ (c : Cls) : Prop := c = .zero ∨ c = .nan
/-- Minus infinity or NaN. -/
def IsB (c : Cls) : Prop := c = .ninf ∨ c = .nan
/-- Not below zero, or NaN. -/
def IsN (c : Cls) : Prop := c = .zero ∨ c = .pos ∨ c = .pinf ∨ c = .nan
/-- Zero, minus infinity or NaN. -/
def IsZB (c : Cls) : Prop := c = .zero ∨ IsB c

theorem mul_z_left {a b r : Cls} (h : IsZ a) (hr : r ∈ a.mul b) : IsZ r := by
  rcases h with rfl | rfl <;> cases b <;> simp_all [Cls.mul, IsZ]

theorem mul_z_right {a b r : Cls} (h : IsZ b) (hr : r ∈ a.mul b) : IsZ r := by
  rcases h with rfl | rfl <;> cases a <;> simp_all [Cls.mul, IsZ]

theorem add_z {a b r : Cls} (h : IsZ a) (h' : IsZ b) (hr : r ∈ a.add b) : IsZ r := by
  rcases h with rfl | rfl <;> rcases h' with rfl | rfl <;> simp_all [Cls.add, IsZ]

theorem mul_b {a b r : Cls} (h : IsB a) (h' : IsN b) (hr : r ∈ a.mul b) : IsB r := by
  rcases h with rfl | rfl <;> rcases h' with rfl | rfl | rfl | rfl <;> simp_all [Cls.mul, IsB]

theorem add_b {a b r : Cls} (h : IsZB a) (h' : IsB b) (hr : r ∈ a.add b) : IsB r := by
  rcases h with rfl | rfl | rfl <;> rcases h' with rfl | rfl <;> simp_all [Cls.add, IsB]

theorem div_b {a b r : Cls} (h : IsB a) (h' : IsB b) (hr : r ∈ a.div b) : r = .nan := by
  rcases h with rfl | rfl <;> rcases h' with rfl | rfl <;> simp_all [Cls.div]

theorem isB_nan : IsB .nan := .inr rfl

section
variable {o : Ops F} {cls : F → Cls}

theorem foldl_z (h : Ieee o cls) {α : Type _} (f : α → F) (hf : ∀ a, IsZ (cls (f a))) (l : List α) (x : F)
    (hx : IsZ (cls x)) : IsZ (cls (l.foldl (fun s a => o.add s (f a)) x)) := by
  induction l generalizing x with
  | nil => exact hx
  | cons a l ih => exact ih _ (add_z hx (hf a) (h.add _ _))

/-- With a zero inverse and a zero determinant the density is minus infinity or NaN. -/
theorem density_b (h : Ieee o cls) (inv : Nat → Nat → F) (hinv : ∀ i j, cls (inv i j) = .zero) (det : F)
    (hdet : cls det = .zero) (x y : Row F n) : IsB (cls (density o inv det x y)) := by
  unfold density
  simp only
  have hz : IsZ (cls o.zero) := .inl h.zero
  have hl := mul_z_right (foldl_z h (fun j : Fin n => o.mul ((List.finRange n).foldl
      (fun s row => o.add s (o.mul (o.sub (x row) (y row)) (inv row.val j.val))) o.zero)
      (o.sub (x j) (y j))) (fun j => mul_z_left (foldl_z h (fun row : Fin n =>
        o.mul (o.sub (x row) (y row)) (inv row.val j.val))
        (fun row => mul_z_right (.inl (hinv _ _)) (h.mul _ _)) (List.finRange n) o.zero hz) (h.mul _ _))
      (List.finRange n) o.zero hz) (h.mul o.mhalf _)
  have hlog : cls (o.log2 det) = .ninf := by
    have := h.log2 det
    rw [hdet] at this
    simpa [Cls.log2] using this
  have hm : cls (o.mul o.half (o.log2 det)) = .ninf := by
    have := h.mul o.half (o.log2 det)
    rw [hlog, h.half] at this
    simpa [Cls.mul] using this
  have hr : cls (o.sub (o.mul (o.mul o.half o.m) (o.log2 o.twoPi)) (o.mul o.half (o.log2 det))) = .pinf := by
    have := h.sub (o.mul (o.mul o.half o.m) (o.log2 o.twoPi)) (o.mul o.half (o.log2 det))
    rw [hm] at this
    rcases h.const with e | e | e <;> rw [e] at this <;> simpa [Cls.add, Cls.opp] using this
  have := h.sub (o.mul o.mhalf ((List.finRange n).foldl (fun s j => o.add s (o.mul
      ((List.finRange n).foldl (fun s row => o.add s (o.mul (o.sub (x row) (y row)) (inv row.val j.val))) o.zero)
      (o.sub (x j) (y j)))) o.zero))
    (o.sub (o.mul (o.mul o.half o.m) (o.log2 o.twoPi)) (o.mul o.half (o.log2 det)))
  rw [hr] at this
  rcases hl with e | e <;> rw [e] at this <;> simp only [Cls.add, Cls.opp, List.mem_singleton] at this
  · exact .inl this
  · exact .inr this

end

/-! ## Order of a worker's operations -/

/-- Every normalisation comes after the density of the same entry. -/
def Ok (seen : List (Op k)) : List (Op k) → Prop
  | [] => True
  | x :: l => (∀ r c, x = .norm r c → .dens r c ∈ seen) ∧ Ok (seen ++ [x]) l

theorem ok_append (l1 l2 seen : List (Op k)) : Ok seen (l1 ++ l2) ↔ Ok seen l1 ∧ Ok (seen ++ l1) l2 := by
  induction l1 generalizing seen with
  | nil => simp [Ok]
  | cons x l ih =>
    simp only [List.cons_append, Ok]
    rw [ih, and_assoc]
    simp

theorem ok_dens (row : Nat) (L : List (Fin k)) (seen : List (Op k)) : Ok seen (L.map (.dens row)) := by
  induction L generalizing seen with
  | nil => trivial
  | cons c l ih => exact ⟨fun _ _ h => (by cases h), ih _⟩

theorem ok_norm (row : Nat) (L : List (Fin k)) (seen : List (Op k)) (h : ∀ c ∈ L, .dens row c ∈ seen) :
    Ok seen (L.map (.norm row)) := by
  induction L generalizing seen with
  | nil => trivial
  | cons c l ih =>
    refine ⟨?_, ih _ fun c' hc' => List.mem_append_left _ (h c' (List.mem_cons_of_mem _ hc'))⟩
    intro r c' e
    cases e
    exact h c List.mem_cons_self

theorem ok_worker (L : List Nat) (seen : List (Op k)) :
    Ok seen (L.flatMap fun row => (List.finRange k).map (.dens row) ++ (List.finRange k).map (.norm row)) := by
  induction L generalizing seen with
  | nil => trivial
  | cons row L ih =>
    rw [List.flatMap_cons, ok_append, ok_append]
    refine ⟨⟨ok_dens _ _ _, ok_norm _ _ _ fun c _ => ?_⟩, ih _⟩
    exact List.mem_append_right _ (List.mem_map.2 ⟨c, List.mem_finRange c, rfl⟩)

/-- A density is followed by the normalisation of the same entry. -/
def OkR : List (Op k) → Prop
  | [] => True
  | x :: l => (∀ r c, x = .dens r c → .norm r c ∈ l) ∧ OkR l

theorem okR_append {l1 l2 : List (Op k)} (h1 : OkR l1) (h2 : OkR l2) : OkR (l1 ++ l2) := by
  induction l1 with
  | nil => exact h2
  | cons x l ih => exact ⟨fun r c e => List.mem_append_left _ (h1.1 r c e), ih h1.2⟩

theorem okR_suffix {l1 l2 : List (Op k)} (h : OkR (l1 ++ l2)) : OkR l2 := by
  induction l1 with
  | nil => exact h
  | cons x l ih => exact ih h.2

theorem okR_norm (row : Nat) (L : List (Fin k)) : OkR (L.map (.norm row)) := by
  induction L with
  | nil => trivial
  | cons c l ih => exact ⟨fun _ _ h => (by cases h), ih⟩

theorem okR_dens (row : Nat) (L : List (Fin k)) (l2 : List (Op k)) (h : ∀ c, .norm row c ∈ l2) (h2 : OkR l2) :
    OkR (L.map (.dens row) ++ l2) := by
  induction L with
  | nil => exact h2
  | cons c l ih =>
    refine ⟨?_, ih⟩
    intro r c' e
    cases e
    exact List.mem_append_right _ (h c)

theorem okR_worker (L : List Nat) :
    OkR (L.flatMap fun row => (List.finRange k).map (Op.dens row) ++ (List.finRange k).map (.norm row)) := by
  induction L with
  | nil => trivial
  | cons row L ih =>
    rw [List.flatMap_cons]
    exact okR_append (okR_dens _ _ _ (fun c => List.mem_map.2 ⟨c, List.mem_finRange c, rfl⟩) (okR_norm _ _)) ih

theorem mem_dens {len row : Nat} {c : Fin k} : .dens row c ∈ workerOps k len ↔ row < len := by
  simp [workerOps]

theorem mem_norm {len row : Nat} {c : Fin k} : .norm row c ∈ workerOps k len ↔ row < len := by
  simp [workerOps]

theorem norm_after {len row : Nat} {c : Fin k} {pre l : List (Op k)}
    (h : workerOps k len = pre ++ .norm row c :: l) : .dens row c ∈ pre := by
  have := ok_worker (k := k) (List.range len) []
  change Ok [] (workerOps k len) at this
  rw [h, ok_append] at this
  simpa using this.2.1 row c rfl

theorem norm_later {len row : Nat} {c : Fin k} {pre l : List (Op k)}
    (h : workerOps k len = pre ++ .dens row c :: l) : .norm row c ∈ l := by
  have := okR_worker (k := k) (List.range len)
  change OkR (workerOps k len) at this
  rw [h] at this
  exact (okR_suffix this).1 row c rfl

/-! ## The phase -/

/-- Every worker has done `pre t` and has the rest to do, and this is what holds of the entries. -/
structure Inv (cls : F → Cls) (nrow nthreads : Nat) (e : EState F k) (pre : Nat → List (Op k)) : Prop where
  split : ∀ t, todo k nrow nthreads t = pre t ++ e.todo t
  px : ∀ r, IsZB (cls (e.Px r))
  dens : ∀ t row c, .dens row c ∈ pre t → row < k ∧ IsB (cls (e.P row c)) ∧
    IsB (cls (e.Px ((Partition.ridLen nrow (Partition.effThreads nthreads nrow) t).1 + row)))
  norm : ∀ t row c, .norm row c ∈ pre t → cls (e.P row c) = .nan ∨ ∃ t', .norm row c ∈ e.todo t'

theorem todo_worker {nrow nthreads t : Nat} {pre l : List (Op k)} {x : Op k}
    (h : todo k nrow nthreads t = pre ++ x :: l) : t < Partition.effThreads nthreads nrow ∧
      workerOps k (Partition.ridLen nrow (Partition.effThreads nthreads nrow) t).2 = pre ++ x :: l := by
  unfold todo at h
  split at h
  · exact ⟨‹_›, h⟩
  · simp at h

theorem setP_apply (P : Nat → Fin k → F) (row : Nat) (c : Fin k) (x : F) (r : Nat) (c' : Fin k) :
    setP P row c x r c' = if r = row ∧ c' = c then x else P r c' := by
  unfold setP
  by_cases h : r = row
  · subst h
    rw [Function.update_self, Function.update_apply]
    simp
  · rw [Function.update_of_ne h]
    simp [h]

variable {o : Ops F} {cls : F → Cls} {data : Nat → Row F n} {nrow nthreads : Nat} {s : St F k n}

theorem eStep_inv (h : Ieee o cls) (hinv : ∀ c i j, cls (s.inv c i j) = .zero)
    (hdet : ∀ c, cls (s.dets c) = .zero) (hpk : ∀ c, IsN (cls (s.Pk c))) {e e' : EState F k}
    {pre : Nat → List (Op k)} (hi : Inv cls nrow nthreads e pre) {t : Nat}
    (hs : eStep o data nrow nthreads s e t = .ok e') : ∃ pre', Inv cls nrow nthreads e' pre' := by
  unfold eStep at hs
  simp only at hs
  split at hs
  · cases hs
    exact ⟨pre, hi⟩
  · rename_i row c l hl
    split at hs
    case isFalse => cases hs
    case isTrue hrow =>
    cases hs
    have hsp := hi.split t
    rw [hl] at hsp
    obtain ⟨ht, hw⟩ := todo_worker hsp
    have htmp : IsB (cls (o.mul (density o (s.inv c) (s.dets c)
        (Partition.localData data nrow nthreads t row) (s.mu ⟨row, hrow⟩)) (s.Pk c))) :=
      mul_b (density_b h _ (hinv c) _ (hdet c) _ _) (hpk c) (h.mul _ _)
    generalize o.mul (density o (s.inv c) (s.dets c)
        (Partition.localData data nrow nthreads t row) (s.mu ⟨row, hrow⟩)) (s.Pk c) = tmp at htmp
    have hadd : ∀ x, IsB (cls (o.add (e.Px x) tmp)) := fun x => add_b (hi.px x) htmp (h.add _ _)
    have hpx : ∀ x y, IsB (cls (e.Px x)) → IsB (cls (Function.update e.Px y (o.add (e.Px y) tmp) x)) := by
      intro x y hx
      rw [Function.update_apply]
      split
      · exact hadd _
      · exact hx
    refine ⟨Function.update pre t (pre t ++ [.dens row c]), ?_, ?_, ?_, ?_⟩
    · intro t'
      by_cases e1 : t' = t
      · subst e1
        simp [hsp]
      · simp [e1, hi.split t']
    · intro r
      simp only
      rw [Function.update_apply]
      split
      · exact .inr (hadd _)
      · exact hi.px r
    · intro t' row' c' hm
      simp only
      rw [setP_apply]
      have hB : IsB (cls (e.P row' c')) → IsB (cls (if row' = row ∧ c' = c then tmp else e.P row' c')) := by
        intro hx
        split
        · exact htmp
        · exact hx
      by_cases e1 : t' = t
      · subst e1
        rw [Function.update_self, List.mem_append] at hm
        rcases hm with hm | hm
        · obtain ⟨a1, a2, a3⟩ := hi.dens t' row' c' hm
          exact ⟨a1, hB a2, hpx _ _ a3⟩
        · simp only [List.mem_singleton, Op.dens.injEq] at hm
          obtain ⟨rfl, rfl⟩ := hm
          refine ⟨hrow, ?_, ?_⟩
          · rw [if_pos ⟨rfl, rfl⟩]
            exact htmp
          · rw [Function.update_self]
            exact hadd _
      · rw [Function.update_of_ne e1] at hm
        obtain ⟨a1, a2, a3⟩ := hi.dens t' row' c' hm
        exact ⟨a1, hB a2, hpx _ _ a3⟩
    · intro t' row' c' hm
      simp only
      rw [setP_apply]
      have hm' : .norm row' c' ∈ pre t' := by
        by_cases e1 : t' = t
        · subst e1
          simpa using hm
        · simpa [e1] using hm
      by_cases e2 : row' = row ∧ c' = c
      · obtain ⟨rfl, rfl⟩ := e2
        refine .inr ⟨t, ?_⟩
        rw [Function.update_self]
        exact norm_later hw
      · rw [if_neg e2]
        rcases hi.norm t' row' c' hm' with q | ⟨t'', q⟩
        · exact .inl q
        · refine .inr ⟨t'', ?_⟩
          by_cases e1 : t'' = t
          · subst e1
            rw [hl] at q
            rw [Function.update_self]
            simpa using q
          · rwa [Function.update_of_ne e1]
  · rename_i row c l hl
    cases hs
    have hsp := hi.split t
    rw [hl] at hsp
    obtain ⟨ht, hw⟩ := todo_worker hsp
    obtain ⟨d1, d2, d3⟩ := hi.dens t row c (norm_after hw)
    have hnan := div_b d2 d3 (h.div _ _)
    generalize o.div (e.P row c)
      (e.Px ((Partition.ridLen nrow (Partition.effThreads nthreads nrow) t).1 + row)) = q at hnan
    refine ⟨Function.update pre t (pre t ++ [.norm row c]), ?_, hi.px, ?_, ?_⟩
    · intro t'
      by_cases e1 : t' = t
      · subst e1
        simp [hsp]
      · simp [e1, hi.split t']
    · intro t' row' c' hm
      simp only
      have hm' : .dens row' c' ∈ pre t' := by
        by_cases e1 : t' = t
        · subst e1
          simpa using hm
        · simpa [e1] using hm
      obtain ⟨a1, a2, a3⟩ := hi.dens t' row' c' hm'
      refine ⟨a1, ?_, a3⟩
      rw [setP_apply]
      split
      · rw [hnan]
        exact isB_nan
      · exact a2
    · intro t' row' c' hm
      simp only
      rw [setP_apply]
      by_cases e2 : row' = row ∧ c' = c
      · rw [if_pos e2]
        exact .inl hnan
      · rw [if_neg e2]
        have hm' : .norm row' c' ∈ pre t' := by
          by_cases e1 : t' = t
          · subst e1
            rw [Function.update_self, List.mem_append] at hm
            rcases hm with hm | hm
            · exact hm
            · simp only [List.mem_singleton, Op.norm.injEq] at hm
              exact absurd hm e2
          · simpa [e1] using hm
        rcases hi.norm t' row' c' hm' with w | ⟨t'', w⟩
        · exact .inl w
        · refine .inr ⟨t'', ?_⟩
          by_cases e1 : t'' = t
          · subst e1
            rw [hl, List.mem_cons] at w
            rw [Function.update_self]
            rcases w with w | w
            · simp only [Op.norm.injEq] at w
              exact absurd w e2
            · exact w
          · rwa [Function.update_of_ne e1]

theorem eRun_inv (h : Ieee o cls) (hinv : ∀ c i j, cls (s.inv c i j) = .zero)
    (hdet : ∀ c, cls (s.dets c) = .zero) (hpk : ∀ c, IsN (cls (s.Pk c))) (sched : List Nat) {e e' : EState F k}
    {pre : Nat → List (Op k)} (hi : Inv cls nrow nthreads e pre)
    (hs : eRun o data nrow nthreads s e sched = .ok e') : ∃ pre', Inv cls nrow nthreads e' pre' := by
  induction sched generalizing e pre with
  | nil =>
    simp only [eRun, Except.ok.injEq] at hs
    subst hs
    exact ⟨pre, hi⟩
  | cons t ts ih =>
    simp only [eRun] at hs
    split at hs
    · cases hs
    · rename_i e1 h1
      obtain ⟨pre1, hi1⟩ := eStep_inv h hinv hdet hpk hi h1
      exact ih hi1 hs

/-! ## Steps without regard to the values -/

/-- Every density still to be computed is of a row with a mean. -/
def Safe (e : EState F k) : Prop := ∀ t row c, .dens row c ∈ e.todo t → row < k

theorem eStep_todo {e e' : EState F k} {t : Nat} (hs : eStep o data nrow nthreads s e t = .ok e') :
    e'.todo = Function.update e.todo t (e.todo t).tail := by
  unfold eStep at hs
  simp only at hs
  split at hs
  · rename_i hl
    cases hs
    simp [hl]
  · rename_i hl
    split at hs
    · cases hs
      simp [hl]
    · cases hs
  · rename_i hl
    cases hs
    simp [hl]

theorem eRun_todo (sched : List Nat) {e e' : EState F k} (hs : eRun o data nrow nthreads s e sched = .ok e')
    (t : Nat) : e'.todo t = (e.todo t).drop (sched.count t) := by
  induction sched generalizing e with
  | nil =>
    simp only [eRun, Except.ok.injEq] at hs
    subst hs
    simp
  | cons a ts ih =>
    simp only [eRun] at hs
    split at hs
    · cases hs
    · rename_i e1 h1
      rw [ih hs, eStep_todo h1]
      by_cases e2 : t = a
      · subst e2
        simp [List.drop_tail]
      · rw [Function.update_of_ne e2, List.count_cons_of_ne (fun q => e2 q.symm)]

theorem eRun_ok (sched : List Nat) (e : EState F k) (hs : Safe e) :
    ∃ e', eRun o data nrow nthreads s e sched = .ok e' := by
  induction sched generalizing e with
  | nil => exact ⟨e, rfl⟩
  | cons t ts ih =>
    have : ∃ e1, eStep o data nrow nthreads s e t = .ok e1 := by
      unfold eStep
      simp only
      split
      · exact ⟨_, rfl⟩
      · rename_i row c l hl
        rw [dif_pos (hs t row c (by rw [hl]; exact List.mem_cons_self))]
        exact ⟨_, rfl⟩
      · exact ⟨_, rfl⟩
    obtain ⟨e1, h1⟩ := this
    simp only [eRun, h1]
    refine ih e1 ?_
    intro t' row c hm
    rw [eStep_todo h1, Function.update_apply] at hm
    split at hm
    · subst t'
      exact hs t row c (List.mem_of_mem_tail hm)
    · exact hs t' row c hm

/-- What has been done was done without a fault. -/
theorem eRun_done (sched : List Nat) {e e' : EState F k} (hs : eRun o data nrow nthreads s e sched = .ok e')
    {t row : Nat} {c : Fin k} (hm : .dens row c ∈ e.todo t) (hc : (e.todo t).length ≤ sched.count t) :
    row < k := by
  induction sched generalizing e with
  | nil =>
    simp only [List.count_nil, Nat.le_zero, List.length_eq_zero_iff] at hc
    rw [hc] at hm
    cases hm
  | cons a ts ih =>
    simp only [eRun] at hs
    split at hs
    · cases hs
    · rename_i e1 h1
      by_cases e2 : t = a
      · subst e2
        cases hl : e.todo t with
        | nil =>
          rw [hl] at hm
          cases hm
        | cons x l =>
          rw [hl, List.mem_cons] at hm
          rcases hm with hm | hm
          · subst hm
            unfold eStep at h1
            simp only [hl] at h1
            split at h1
            · assumption
            · cases h1
          · refine ih hs (by rw [eStep_todo h1, Function.update_self, hl]; exact hm) ?_
            rw [eStep_todo h1, Function.update_self, hl]
            rw [hl] at hc
            simpa using hc
      · refine ih hs (by rw [eStep_todo h1, Function.update_of_ne e2]; exact hm) ?_
        rw [eStep_todo h1, Function.update_of_ne e2]
        rwa [List.count_cons_of_ne (fun q => e2 q.symm)] at hc

theorem eRun_fault (sched : List Nat) {e : EState F k} {x : Fault}
    (hs : eRun o data nrow nthreads s e sched = .error x) : x = .ub := by
  induction sched generalizing e with
  | nil => cases hs
  | cons a ts ih =>
    simp only [eRun] at hs
    split at hs
    · rename_i q h1
      cases hs
      unfold eStep at h1
      simp only at h1
      split at h1
      · cases h1
      · split at h1
        · cases h1
        · cases h1
          rfl
      · cases h1
    · exact ih hs

/-! ## The result of a phase -/

/-- After a complete phase every normalised entry is NaN. -/
theorem eRun_nan (h : Ieee o cls) (hinv : ∀ c i j, cls (s.inv c i j) = .zero)
    (hdet : ∀ c, cls (s.dets c) = .zero) (hpk : ∀ c, IsN (cls (s.Pk c))) (hpx : ∀ r, cls (s.Px r) = .zero)
    (sched : List Nat) {e' : EState F k}
    (hc : ∀ t, t < Partition.effThreads nthreads nrow → (todo k nrow nthreads t).length ≤ sched.count t)
    (hs : eRun o data nrow nthreads s ⟨s.P, s.Px, todo k nrow nthreads⟩ sched = .ok e')
    {t row : Nat} (ht : t < Partition.effThreads nthreads nrow)
    (hrow : row < (Partition.ridLen nrow (Partition.effThreads nthreads nrow) t).2) (c : Fin k) :
    cls (e'.P row c) = .nan := by
  have hi : Inv cls nrow nthreads (⟨s.P, s.Px, todo k nrow nthreads⟩ : EState F k) (fun _ => []) :=
    ⟨fun t => rfl, fun r => .inl (hpx r), fun _ _ _ hm => absurd hm List.not_mem_nil,
      fun _ _ _ hm => absurd hm List.not_mem_nil⟩
  obtain ⟨pre, hi'⟩ := eRun_inv h hinv hdet hpk sched hi hs
  have hempty : ∀ t, e'.todo t = [] := by
    intro t'
    rw [eRun_todo sched hs]
    by_cases q : t' < Partition.effThreads nthreads nrow
    · exact List.drop_eq_nil_of_le (hc t' q)
    · simp [todo, q]
  have hpre : pre t = todo k nrow nthreads t := by
    rw [hi'.split t, hempty t, List.append_nil]
  have hm : .norm row c ∈ pre t := by
    rw [hpre, todo, if_pos ht]
    exact mem_norm.2 hrow
  rcases hi'.norm t row c hm with q | ⟨t', q⟩
  · exact q
  · rw [hempty t'] at q
    cases q

/-- Entries of lines that no worker has stay as they are. -/
theorem eRun_P_other (sched : List Nat) {e e' : EState F k} {row : Nat}
    (hn : ∀ t c, .dens row c ∉ e.todo t ∧ .norm row c ∉ e.todo t)
    (hs : eRun o data nrow nthreads s e sched = .ok e') : e'.P row = e.P row := by
  induction sched generalizing e with
  | nil =>
    simp only [eRun, Except.ok.injEq] at hs
    rw [hs]
  | cons t ts ih =>
    simp only [eRun] at hs
    split at hs
    · cases hs
    · rename_i e1 h1
      have hn1 : ∀ t c, .dens row c ∉ e1.todo t ∧ .norm row c ∉ e1.todo t := by
        intro t' c
        rw [eStep_todo h1, Function.update_apply]
        split
        · subst t'
          exact ⟨fun q => (hn t c).1 (List.mem_of_mem_tail q), fun q => (hn t c).2 (List.mem_of_mem_tail q)⟩
        · exact hn t' c
      rw [ih hn1 hs]
      unfold eStep at h1
      simp only at h1
      split at h1
      · cases h1
        rfl
      · rename_i r c l hl
        split at h1
        · cases h1
          funext c'
          simp only
          rw [setP_apply, if_neg]
          rintro ⟨rfl, -⟩
          exact (hn t c).1 (by rw [hl]; exact List.mem_cons_self)
        · cases h1
      · rename_i r c l hl
        cases h1
        funext c'
        simp only
        rw [setP_apply, if_neg]
        rintro ⟨rfl, -⟩
        exact (hn t c).2 (by rw [hl]; exact List.mem_cons_self)

/-! ## Initialisation -/

theorem forgy_ok (draw : S → Nat × S) (hnt : 0 < nthreads) (hlt : nrow < 4294967296)
    (hd : ∀ s, (draw s).1 < nrow) (l : List (Fin k)) (seed : S) (mu : Fin k → Row F n) :
    ∃ mu', forgy draw data nrow nthreads l seed mu = .ok mu' ∧
      (∀ c, c ∈ l → ∃ r, r < nrow ∧ mu' c = data r) ∧ ∀ c, c ∉ l → mu' c = mu c := by
  induction l generalizing seed mu with
  | nil => exact ⟨mu, rfl, by simp, by simp⟩
  | cons a l ih =>
    obtain ⟨mu', e1, h1, h2⟩ := ih (draw seed).2 (Function.update mu a (data (draw seed).1))
    refine ⟨mu', ?_, ?_, ?_⟩
    · simp only [forgy]
      rw [Init.thdRow_ok hnt (hd seed) hlt]
      exact e1
    · intro c hc
      by_cases q : c ∈ l
      · exact h1 c q
      · have : c = a := by simpa [q] using hc
        subst this
        exact ⟨_, hd seed, by rw [h2 c q, Function.update_self]⟩
    · intro c hc
      simp only [List.mem_cons, not_or] at hc
      rw [h2 c hc.2, Function.update_of_ne hc.1]

theorem length_fillRows (draw : S → F × S) (cols r : Nat) (seed : S) :
    (fillRows o draw cols r seed).length = r := by
  induction r generalizing seed with
  | zero => rfl
  | succ r ih => simp [fillRows, ih]

theorem fillRows_get (draw : S → F × S) (cols r : Nat) (seed : S) (i : Nat) (hi : i < r) :
    (fillRows o draw cols r seed).getD i [] =
      normalise o (Init.outputs draw cols (Init.skip draw (i * cols) seed)) := by
  induction r generalizing seed i with
  | zero => omega
  | succ r ih =>
    cases i with
    | zero => simp [fillRows, Init.skip]
    | succ i =>
      have := ih (Init.skip draw cols seed) i (by omega)
      have hsk : ∀ a b (s : S), Init.skip draw (a + b) s = Init.skip draw b (Init.skip draw a s) := by
        intro a b
        induction a with
        | zero => intro s; simp [Init.skip]
        | succ a ih => intro s; rw [Nat.succ_add]; simp only [Init.skip]; exact ih _
      rw [Nat.succ_mul, Nat.add_comm (i * cols), hsk, ← this]
      simp [fillRows]

/-- The sum of numbers that are not negative is zero only if all are. -/
theorem foldl_nonneg (h : Ieee o cls) (l : List F) (hl : ∀ x ∈ l, cls x = .zero ∨ cls x = .pos) (a : F)
    (ha : cls a = .zero ∨ cls a = .pos ∨ cls a = .pinf) :
    (cls (l.foldl o.add a) = .zero ∨ cls (l.foldl o.add a) = .pos ∨ cls (l.foldl o.add a) = .pinf) ∧
      (cls (l.foldl o.add a) = .zero → cls a = .zero ∧ ∀ x ∈ l, cls x = .zero) := by
  induction l generalizing a with
  | nil => exact ⟨ha, fun q => ⟨q, by simp⟩⟩
  | cons x l ih =>
    have hx := hl x List.mem_cons_self
    have hadd := h.add a x
    have ha' : cls (o.add a x) = .zero ∨ cls (o.add a x) = .pos ∨ cls (o.add a x) = .pinf := by
      rcases ha with e | e | e <;> rcases hx with e' | e' <;> rw [e, e'] at hadd <;>
        simp [Cls.add] at hadd <;> simp [hadd]
    obtain ⟨h1, h2⟩ := ih (fun y hy => hl y (List.mem_cons_of_mem _ hy)) (o.add a x) ha'
    refine ⟨h1, fun q => ?_⟩
    obtain ⟨q1, q2⟩ := h2 q
    rw [q1] at hadd
    rcases ha with e | e | e <;> rcases hx with e' | e' <;> rw [e, e'] at hadd <;>
      simp [Cls.add] at hadd
    refine ⟨e, ?_⟩
    intro y hy
    rcases List.mem_cons.1 hy with rfl | hy
    · exact e'
    · exact q2 y hy

theorem normalise_isN (h : Ieee o cls) (l : List F) (hl : ∀ x ∈ l, cls x = .zero ∨ cls x = .pos) :
    ∀ y ∈ normalise o l, IsN (cls y) := by
  intro y hy
  simp only [normalise, List.mem_map] at hy
  obtain ⟨x, hx, rfl⟩ := hy
  obtain ⟨h1, h2⟩ := foldl_nonneg h l hl o.zero (.inl h.zero)
  have hd := h.div x (l.foldl o.add o.zero)
  rcases h1 with e | e | e
  · have hx0 := (h2 e).2 x hx
    rw [e, hx0] at hd
    simp only [Cls.div, List.mem_singleton] at hd
    simp [IsN, hd]
  · rw [e] at hd
    rcases hl x hx with e' | e' <;> rw [e'] at hd <;> simp [Cls.div] at hd <;> simp [IsN, hd]
    rcases hd with q | q | q <;> simp [q]
  · rw [e] at hd
    rcases hl x hx with e' | e' <;> rw [e'] at hd <;> simp [Cls.div] at hd <;> simp [IsN, hd]

theorem outputs_mem (draw : S → F × S) (P : F → Prop) (hd : ∀ s, P (draw s).1) (m : Nat) (seed : S) :
    ∀ x ∈ Init.outputs draw m seed, P x := by
  induction m generalizing seed with
  | zero => simp [Init.outputs]
  | succ m ih =>
    intro x hx
    simp only [Init.outputs, List.mem_cons] at hx
    rcases hx with rfl | hx
    · exact hd _
    · exact ih _ x hx

end Knor.Gmm
