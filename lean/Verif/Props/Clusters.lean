import Mathlib.Algebra.Order.Field.Rat
import Mathlib.Algebra.Order.BigOperators.Group.List
import Verif.Lemmas.Clusters
import Verif.Lemmas.Membership

/-!
# Properties C15–C17: the algebra of cluster sums
-/

namespace Knor.Clusters

open Knor Knor.Spec

variable {R : Type _} {k n : Nat}

/-- A small concrete object used as a witness below: two clusters in one dimension with running
sums 6 and 5 over 3 members and 1 member. -/
def sample : Clusters ℚ 2 1 :=
  { means := fun c _ => if c = 0 then 6 else 5
    num := fun c => if c = 0 then 3 else 1
    complete := fun _ => false }

/-- **C15 (idempotence).** Finalising a cluster twice is finalising it once; likewise for
un-finalising; neither changes any member count. -/
theorem C15_finalize_idempotent [Field R] (s : Clusters R k n) (c : Fin k) :
    (s.finalize c).finalize c = s.finalize c ∧
    (s.unfinalize c).unfinalize c = s.unfinalize c ∧
    (s.finalize c).num = s.num ∧ (s.unfinalize c).num = s.num := by
  refine ⟨?_, ?_, finalize_num s c, unfinalize_num s c⟩
  · have h : (s.finalize c).complete c = true := by rw [finalize_complete]; simp
    generalize s.finalize c = s' at h
    unfold finalize; simp [h]
  · have h : (s.unfinalize c).complete c = false := by rw [unfinalize_complete]; simp
    generalize s.unfinalize c = s' at h
    unfold unfinalize; simp [h]

/-- **C15 (round trip).** Un-finalising a freshly finalised object restores every running sum,
count and flag exactly, and finalising a freshly un-finalised object restores every centroid.
This holds for all counts, also 0 and 1 where no division takes place. -/
theorem C15_finalize_roundtrip [Field R] [CharZero R] (s : Clusters R k n) :
    ((∀ c, s.complete c = false) → s.finalizeAll.unfinalizeAll = s) ∧
    ((∀ c, s.complete c = true) → s.unfinalizeAll.finalizeAll = s) := by
  constructor
  · intro h
    apply Clusters.ext
    · funext c
      rw [unfinalizeAll_means]
      unfold unfinMean
      rw [finalizeAll_complete, finalizeAll_num, finalizeAll_means]
      unfold finMean
      simp only [h c, if_true, Bool.false_eq_true, if_false]
      by_cases h2 : s.num c < 2
      · rw [if_pos h2, if_neg (by omega)]
      · rw [if_neg h2, if_pos (by omega)]
        funext j
        have : (s.num c : R) ≠ 0 := by
          have : s.num c ≠ 0 := by omega
          exact_mod_cast this
        field_simp
    · rw [unfinalizeAll_num, finalizeAll_num]
    · funext c; rw [unfinalizeAll_complete, h c]
  · intro h
    apply Clusters.ext
    · funext c
      rw [finalizeAll_means]
      unfold finMean
      rw [unfinalizeAll_complete, unfinalizeAll_num, unfinalizeAll_means]
      unfold unfinMean
      simp only [h c, if_true, Bool.false_eq_true, if_false]
      by_cases h2 : s.num c < 2
      · rw [if_pos h2, if_neg (by omega)]
      · rw [if_neg h2, if_pos (by omega)]
        funext j
        have : (s.num c : R) ≠ 0 := by
          have : s.num c ≠ 0 := by omega
          exact_mod_cast this
        field_simp
    · rw [finalizeAll_num, unfinalizeAll_num]
    · funext c; rw [finalizeAll_complete, h c]

/-- The round trip is not vacuous: finalising `sample` really divides 6 by 3. -/
example : (∀ c, sample.complete c = false) ∧ sample.finalizeAll.means 0 0 = 2 ∧
    sample.finalizeAll.means 1 0 = 5 ∧ sample.finalizeAll.unfinalizeAll.means 0 0 = 6 := by
  decide +kernel

/-- **C16.** Merging per-thread partial sums gives the same object in every order. -/
theorem C16_merge_order_independent [AddCommMonoid R] (s : Clusters R k n)
    (l l' : List (Clusters R k n)) (h : l.Perm l') : l.foldl peq s = l'.foldl peq s := by
  obtain ⟨a1, a2, a3⟩ := foldl_peq l s
  obtain ⟨b1, b2, b3⟩ := foldl_peq l' s
  apply Clusters.ext
  · funext c j; rw [a2, b2, (h.map _).sum_eq]
  · funext c; rw [a3, b3, (h.map _).sum_eq]
  · rw [a1, b1]

/-- Two different partial sums in both orders. -/
example : [sample, sample.finalizeAll].Perm [sample.finalizeAll, sample] ∧
    ([sample, sample.finalizeAll].foldl peq Clusters.empty).means 0 0 = 8 := by
  refine ⟨List.Perm.swap _ _ _, by decide +kernel⟩

/-! ### C17: histories of membership updates -/

/-- A membership operation on row `r`. -/
inductive Op (k : Nat) where
  | add (r : Nat) (c : Fin k)
  | remove (r : Nat) (c : Fin k)
  | move (r : Nat) (src dst : Fin k)

/-- What the operation does to the cluster object. -/
def Op.applyCode [Add R] [Sub R] (data : Nat → Row R n) (s : Clusters R k n) :
    Op k → Clusters R k n
  | .add r c => s.addMember (data r) c
  | .remove r c => s.removeMember (data r) c
  | .move r a b => s.swapMembership (data r) a b

/-- Specification: what the operation means for "which cluster is row `r` in".  It is legal only
if the row is where the operation says it is. -/
inductive Op.Legal (N : Nat) : (Nat → Option (Fin k)) → Op k → (Nat → Option (Fin k)) → Prop where
  | add {as r c} : r < N → as r = none → Op.Legal N as (.add r c) (Function.update as r (some c))
  | remove {as r c} : r < N → as r = some c →
      Op.Legal N as (.remove r c) (Function.update as r none)
  | move {as r a b} : r < N → as r = some a →
      Op.Legal N as (.move r a b) (Function.update as r (some b))

/-- A legal history from one membership to another. -/
inductive Op.History (N : Nat) :
    (Nat → Option (Fin k)) → List (Op k) → (Nat → Option (Fin k)) → Prop where
  | nil {as} : Op.History N as [] as
  | cons {as as' as'' o os} : Op.Legal N as o as' → Op.History N as' os as'' →
      Op.History N as (o :: os) as''

/-- **C17.** After any legal history of adding, removing and moving rows, sums and counts are those
computed from scratch from the resulting membership. -/
theorem C17_incremental_equals_batch [Field R] (N : Nat) (data : Nat → Row R n)
    (os : List (Op k)) (final : Nat → Option (Fin k))
    (hh : Op.History N (fun _ => none) os final) :
    let s := os.foldl (Op.applyCode data) (Clusters.empty : Clusters R k n)
    (∀ c j, s.means c j = memberSum N data final c j) ∧
    (∀ c, s.num c = (Spec.count N final c : Int)) := by
  have gen : ∀ (as : Nat → Option (Fin k)) (s : Clusters R k n) (os : List (Op k))
      (final : Nat → Option (Fin k)), Op.History N as os final →
      (∀ c j, s.means c j = memberSum N data as c j) →
      (∀ c, s.num c = (Spec.count N as c : Int)) →
      (∀ c j, (os.foldl (Op.applyCode data) s).means c j = memberSum N data final c j) ∧
      (∀ c, (os.foldl (Op.applyCode data) s).num c = (Spec.count N final c : Int)) := by
    intro as s os final h
    induction h generalizing s with
    | nil => intro h1 h2; exact ⟨h1, h2⟩
    | cons hl _ ih =>
      intro h1 h2
      simp only [List.foldl_cons]
      apply ih
      · intro c' j
        cases hl with
        | @add r c hr hn =>
          rw [memberSum_update hr, hn]
          by_cases hc : c' = c
          · subst hc; simp [Op.applyCode, addMember, h1]
          · simp [Op.applyCode, addMember, Function.update_of_ne hc, h1, Ne.symm hc]
        | @remove r c hr hn =>
          rw [memberSum_update hr, hn]
          by_cases hc : c' = c
          · subst hc; simp [Op.applyCode, removeMember, h1]
          · simp [Op.applyCode, removeMember, Function.update_of_ne hc, h1, Ne.symm hc]
        | @move r a b hr hn =>
          rw [memberSum_update hr, hn]
          simp only [Op.applyCode, swapMembership, addMember, removeMember]
          by_cases hb : c' = b <;> by_cases ha : c' = a
          · subst hb; subst ha; simp [h1]
          · subst hb; simp [Function.update_of_ne ha, h1, Ne.symm ha]
          · subst ha; simp [Function.update_of_ne hb, h1, Ne.symm hb]
          · simp [Function.update_of_ne hb, Function.update_of_ne ha, h1, Ne.symm hb, Ne.symm ha]
      · intro c'
        cases hl with
        | @add r c hr hn =>
          rw [count_update hr, hn]
          by_cases hc : c' = c
          · subst hc; simp [Op.applyCode, addMember, h2]
          · simp [Op.applyCode, addMember, Function.update_of_ne hc, h2, Ne.symm hc]
        | @remove r c hr hn =>
          rw [count_update hr, hn]
          by_cases hc : c' = c
          · subst hc; simp [Op.applyCode, removeMember, h2]
          · simp [Op.applyCode, removeMember, Function.update_of_ne hc, h2, Ne.symm hc]
        | @move r a b hr hn =>
          rw [count_update hr, hn]
          simp only [Op.applyCode, swapMembership, addMember, removeMember]
          by_cases hb : c' = b <;> by_cases ha : c' = a
          · subst hb; subst ha; simp [h2]
          · subst hb; simp [Function.update_of_ne ha, h2, Ne.symm ha]
          · subst ha; simp [Function.update_of_ne hb, h2, Ne.symm hb]
          · simp [Function.update_of_ne hb, Function.update_of_ne ha, h2, Ne.symm hb, Ne.symm ha]
  refine gen (fun _ => none) Clusters.empty os final hh ?_ ?_
  · intro c j; simp [Clusters.empty, memberSum]
  · intro c; simp [Clusters.empty, Spec.count]

/-- A legal history: add rows 0 and 1 to cluster 0, move row 1 to cluster 1, remove row 0. -/
example : Op.History (k := 2) 2 (fun _ => none)
    [.add 0 0, .add 1 0, .move 1 0 1, .remove 0 0]
    (Function.update (Function.update (Function.update (Function.update (fun _ => none) 0 (some 0))
      1 (some 0)) 1 (some 1)) 0 none) :=
  .cons (.add (by decide) rfl) (.cons (.add (by decide) rfl)
    (.cons (.move (by decide) rfl) (.cons (.remove (by decide) rfl) .nil)))

end Knor.Clusters
