import Mathlib.Data.List.Nodup
import Verif.Model.Compact

/-!
# Lemmas about the compaction of hierarchical results
-/

namespace Knor.Compact

open Knor

variable {R : Type _} {n : Nat}

/-- The ids with a positive count, in increasing order. -/
def posIds : List Int → Nat → List Nat
  | [], _ => []
  | c :: cs, i => if 0 < c then i :: posIds cs (i + 1) else posIds cs (i + 1)

/-- The map that sends the elements of a list to their positions. -/
def posMap (Q : List Nat) : IdMap := fun x => if x ∈ Q then some (Q.idxOf x) else none

theorem mem_posIds {cs : List Int} {i x : Nat} :
    x ∈ posIds cs i ↔ i ≤ x ∧ ∃ c, cs[x - i]? = some c ∧ 0 < c := by
  induction cs generalizing i with
  | nil => simp [posIds]
  | cons c cs ih =>
    have hs : x ∈ posIds cs (i + 1) ↔ i + 1 ≤ x ∧ ∃ c', (c :: cs)[x - i]? = some c' ∧ 0 < c' := by
      rw [ih]
      constructor
      · rintro ⟨h1, h2⟩
        refine ⟨h1, ?_⟩
        rwa [show x - i = (x - (i + 1)) + 1 by omega, List.getElem?_cons_succ]
      · rintro ⟨h1, h2⟩
        refine ⟨h1, ?_⟩
        rwa [show x - i = (x - (i + 1)) + 1 by omega, List.getElem?_cons_succ] at h2
    unfold posIds
    by_cases hc : 0 < c
    · rw [if_pos hc, List.mem_cons, hs]
      constructor
      · rintro (rfl | ⟨h1, h2⟩)
        · exact ⟨le_refl _, c, by simp, hc⟩
        · exact ⟨by omega, h2⟩
      · rintro ⟨h1, h2⟩
        by_cases hx : x = i
        · exact Or.inl hx
        · exact Or.inr ⟨by omega, h2⟩
    · rw [if_neg hc, hs]
      constructor
      · rintro ⟨h1, h2⟩
        exact ⟨by omega, h2⟩
      · rintro ⟨h1, c', h2, h3⟩
        by_cases hx : x = i
        · subst hx
          simp at h2
          omega
        · exact ⟨by omega, c', h2, h3⟩

theorem posIds_nodup (cs : List Int) (i : Nat) : (posIds cs i).Nodup := by
  induction cs generalizing i with
  | nil => simp [posIds]
  | cons c cs ih =>
    unfold posIds
    split
    · rw [List.nodup_cons]
      refine ⟨fun h => ?_, ih _⟩
      have := (mem_posIds.1 h).1
      omega
    · exact ih _

theorem posMap_append {Q : List Nat} {i : Nat} (h : i ∉ Q) :
    Function.update (posMap Q) i (some Q.length) = posMap (Q ++ [i]) := by
  funext x
  unfold posMap
  by_cases hx : x = i
  · subst hx
    rw [Function.update_self, if_pos (by simp), List.idxOf_append_of_notMem h]
    simp
  · rw [Function.update_of_ne hx]
    by_cases hq : x ∈ Q
    · rw [if_pos hq, if_pos (by simp [hq]), List.idxOf_append_of_mem hq]
    · rw [if_neg hq, if_neg (by simp [hq, hx])]

/-- `remap` keeps the positive counts and numbers their ids consecutively. -/
theorem remapLoop_eq {cs : List Int} {f : Nat → Int} (hpos : ∀ c ∈ cs, 0 ≤ c) :
    ∀ {i : Nat} {Q : List Nat}, (∀ q ∈ Q, q < i) → Q.length ≤ i →
      i + cs.length ≤ 4294967296 → (∀ j c, cs[j]? = some c → f (i + j) = c) →
      remapLoop cs i (Q.map fun q => (f q).toNat) (posMap Q)
        = .ok ((Q ++ posIds cs i).map fun q => (f q).toNat, posMap (Q ++ posIds cs i)) := by
  induction cs with
  | nil => intro i Q _ _ _ _; simp [remapLoop, posIds]
  | cons c cs ih =>
    intro i Q hQ hlen hlt hf
    have h0 : 0 ≤ c := hpos c (by simp)
    have hf0 : f i = c := hf 0 c (by simp)
    have hf' : ∀ j c', cs[j]? = some c' → f (i + 1 + j) = c' := by
      intro j c' hj
      have := hf (j + 1) c' (by simpa using hj)
      rwa [show i + (j + 1) = i + 1 + j by omega] at this
    have hpos' : ∀ c ∈ cs, 0 ≤ c := fun c hc => hpos c (by simp [hc])
    have hl : i + 1 + cs.length ≤ 4294967296 := by
      simp only [List.length_cons] at hlt
      omega
    unfold remapLoop posIds
    rw [if_pos h0]
    by_cases hc : 0 < c
    · rw [if_pos hc, if_pos hc]
      have hi : i ∉ Q := fun h => by have := hQ i h; omega
      have e1 : u32 i = i := u32_of_lt (by omega)
      have e2 : u32 (Q.map fun q => (f q).toNat).length = Q.length := by
        rw [List.length_map]
        exact u32_of_lt (by omega)
      rw [e1, e2, posMap_append hi]
      have := ih hpos' (i := i + 1) (Q := Q ++ [i]) (by
          intro q hq
          rcases List.mem_append.1 hq with hq | hq
          · have := hQ q hq; omega
          · simp at hq; omega) (by simp; omega) hl hf'
      rw [List.map_append] at this
      simp only [List.map_cons, List.map_nil, hf0] at this
      rw [this]
      simp
    · rw [if_neg hc, if_neg hc]
      exact ih hpos' (fun q hq => by have := hQ q hq; omega) (by omega) hl hf'

/-- With every id known to the map, renaming is pointwise and leaves the map alone. -/
theorem relabel_eq {Q : List Nat} {a : List Nat} (h : ∀ x ∈ a, x ∈ Q) :
    relabel a (posMap Q) = (a.map fun x => Q.idxOf x, posMap Q) := by
  induction a with
  | nil => rfl
  | cons x a ih =>
    have hx : x ∈ Q := h x (by simp)
    have e : (posMap Q).at x = (Q.idxOf x, posMap Q) := by
      unfold IdMap.at posMap
      simp [hx]
    unfold relabel
    simp only [e]
    rw [ih fun y hy => h y (by simp [hy])]
    rfl

/-- With every key known to the map and room for every slot, each centroid ends up in its slot. -/
theorem copyRows_eq {Q : List Nat} {size : Nat} (hsize : Q.length ≤ size)
    (cents : List (Nat × Row R n)) (buf : Nat → Row R n)
    (hk : ∀ e ∈ cents, e.1 ∈ Q) (hnd : (cents.map Prod.fst).Nodup) :
    ∃ buf', copyRows size cents (posMap Q) buf = .ok buf' ∧
      (∀ e ∈ cents, buf' (Q.idxOf e.1) = e.2) ∧
      (∀ s, (∀ e ∈ cents, Q.idxOf e.1 ≠ s) → buf' s = buf s) := by
  induction cents generalizing buf with
  | nil => exact ⟨buf, rfl, by simp, fun _ _ => rfl⟩
  | cons e l ih =>
    obtain ⟨key, v⟩ := e
    have hq : key ∈ Q := hk (key, v) (by simp)
    have ea : (posMap Q).at key = (Q.idxOf key, posMap Q) := by
      unfold IdMap.at posMap
      simp [hq]
    simp only [List.map_cons, List.nodup_cons] at hnd
    obtain ⟨buf', e1, e2, e3⟩ := ih (Function.update buf (Q.idxOf key) v)
      (fun e he => hk e (by simp [he])) hnd.2
    have hlt : Q.idxOf key < size := lt_of_lt_of_le (List.idxOf_lt_length_of_mem hq) hsize
    refine ⟨buf', ?_, ?_, ?_⟩
    · unfold copyRows
      simp only [ea]
      rw [if_pos hlt]
      exact e1
    · intro e he
      rcases List.mem_cons.1 he with rfl | he
      · show buf' (Q.idxOf key) = v
        rw [e3, Function.update_self]
        intro e he heq
        have hmem : e.1 ∈ Q := hk e (by simp [he])
        have : e.1 = key := (List.idxOf_inj hmem).1 heq
        exact hnd.1 (this ▸ List.mem_map_of_mem (f := Prod.fst) he)
      · exact e2 e he
    · intro s hs
      rw [e3 s fun e he => hs e (by simp [he]), Function.update_of_ne]
      exact fun h => hs (key, v) (by simp) h.symm

end Knor.Compact
