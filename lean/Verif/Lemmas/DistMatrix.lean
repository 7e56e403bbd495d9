import Mathlib.Order.MinMax
import Mathlib.Data.List.Basic
import Mathlib.Tactic.Common
import Verif.Model.DistMatrix
import Verif.Spec.DistMatrix

namespace Knor.DistMatrix

open Knor

variable {R D : Type _} {k n : Nat}

/-- Shape of the table for `k` clusters. -/
structure WF (k : Nat) (m : DistMatrix D) : Prop where
  rows : m.rows = k - 1
  len : m.mat.length = k - 1
  rowLen : ∀ i l, m.mat[i]? = some l → l.length = k - 1 - i

theorem create_wf {big : D} {k : Nat} (hk : 1 < k) :
    ∃ m, create big k = .ok m ∧ WF k m ∧
      ∀ i j, i < k → j < k → m.get big i j = .ok big := by
  refine ⟨_, by rw [create, if_pos hk], ⟨rfl, by simp, ?_⟩, ?_⟩
  · intro i l h
    rw [List.getElem?_map] at h
    simp only [Option.map_eq_some_iff] at h
    obtain ⟨a, ha, hl⟩ := h
    rw [List.getElem?_range (by
      by_contra hge
      rw [List.getElem?_eq_none (by simpa using hge)] at ha
      simp at ha)] at ha
    simp only [Option.some.injEq] at ha
    subst ha; subst hl; simp
  · intro i j hi hj
    unfold get
    by_cases hij : i = j
    · rw [if_pos hij]
    · rw [if_neg hij]
      unfold translate
      by_cases hlt : j < i
      · simp only [hlt, if_true]
        rw [if_pos (by omega), if_pos (by omega)]
        simp only
        rw [List.getElem?_map, List.getElem?_range (by omega)]
        simp only [Option.map_some]
        rw [List.getElem?_replicate_of_lt (by omega)]
      · simp only [hlt, if_false]
        rw [if_pos (by omega), if_pos (by omega)]
        simp only
        rw [List.getElem?_map, List.getElem?_range (by omega)]
        simp only [Option.map_some]
        rw [List.getElem?_replicate_of_lt (by omega)]

/-- Slot of an unordered pair. -/
def slot (i j : Nat) : Nat × Nat := (min i j, max i j - min i j - 1)

theorem translate_eq {m : DistMatrix D} (h : WF k m) {i j : Nat} (hi : i < k) (hj : j < k)
    (hij : i ≠ j) : m.translate i j = .ok (slot i j) := by
  unfold translate slot
  by_cases hlt : j < i
  · simp only [hlt, if_true]
    rw [h.rows, if_pos (by omega), if_pos (by omega)]
    congr 2
    · omega
    · omega
  · simp only [hlt, if_false]
    rw [h.rows, if_pos (by omega), if_pos (by omega)]
    congr 2
    · omega
    · omega

theorem slot_inj {i j a b : Nat} (hij : i ≠ j) (hab : a ≠ b) :
    slot i j = slot a b ↔ (i = a ∧ j = b) ∨ (i = b ∧ j = a) := by
  unfold slot
  rw [Prod.mk.injEq]
  omega

/-- Entry in a slot. -/
def at? (m : DistMatrix D) (p : Nat × Nat) : Option D := (m.mat[p.1]?).bind fun l => l[p.2]?

theorem slot_in {m : DistMatrix D} (h : WF k m) {i j : Nat} (hi : i < k) (hj : j < k)
    (hij : i ≠ j) : ∃ l, m.mat[(slot i j).1]? = some l ∧ (slot i j).2 < l.length := by
  have hl : (slot i j).1 < m.mat.length := by rw [h.len]; unfold slot; simp only; omega
  refine ⟨_, List.getElem?_eq_getElem hl, ?_⟩
  rw [h.rowLen _ _ (List.getElem?_eq_getElem hl)]
  unfold slot; simp only; omega

theorem get_eq {big : D} {m : DistMatrix D} (h : WF k m) {i j : Nat} (hi : i < k) (hj : j < k)
    (hij : i ≠ j) : ∃ v, m.get big i j = .ok v ∧ m.at? (slot i j) = some v := by
  obtain ⟨l, h1, h2⟩ := slot_in h hi hj hij
  refine ⟨l[(slot i j).2], ?_, ?_⟩
  · unfold get
    rw [if_neg hij, translate_eq h hi hj hij]
    simp only [h1]
    rw [List.getElem?_eq_getElem h2]
  · unfold at?
    rw [h1]
    simp only [Option.bind_some]
    rw [List.getElem?_eq_getElem h2]

theorem set_spec {big : D} {m : DistMatrix D} (h : WF k m) {i j : Nat} (hi : i < k) (hj : j < k)
    (hij : i ≠ j) (v : D) :
    ∃ m', m.set i j v = .ok m' ∧ WF k m' ∧ ∀ a b, a < k → b < k →
      m'.get big a b = if a ≠ b ∧ ((a = i ∧ b = j) ∨ (a = j ∧ b = i)) then .ok v
        else m.get big a b := by
  obtain ⟨l, h1, h2⟩ := slot_in h hi hj hij
  set p := slot i j with hp
  set m' : DistMatrix D := { m with mat := m.mat.set p.1 (l.set p.2 v) } with hm'
  have hset : m.set i j v = .ok m' := by
    unfold set
    rw [if_neg hij, translate_eq h hi hj hij]
    simp only
    rw [← hp, h1]
    simp only
    rw [if_pos h2]
  have hwf : WF k m' := by
    refine ⟨h.rows, by simp [hm', h.len], ?_⟩
    intro a l' hl'
    simp only [hm'] at hl'
    rw [List.getElem?_set] at hl'
    by_cases ha : p.1 = a
    · rw [if_pos ha] at hl'
      split at hl'
      · simp only [Option.some.injEq] at hl'
        subst hl'
        rw [List.length_set, ← ha]
        exact h.rowLen _ _ h1
      · simp at hl'
    · rw [if_neg ha] at hl'
      exact h.rowLen _ _ hl'
  refine ⟨m', hset, hwf, ?_⟩
  intro a b ha hb
  by_cases hab : a = b
  · unfold get; simp [hab]
  · obtain ⟨v1, e1, f1⟩ := get_eq (big := big) hwf ha hb hab
    obtain ⟨v0, e0, f0⟩ := get_eq (big := big) h ha hb hab
    rw [e1]
    have key : m'.at? (slot a b) = if slot a b = p then some v else m.at? (slot a b) := by
      unfold at?
      simp only [hm']
      by_cases hs : slot a b = p
      · rw [if_pos hs, hs, List.getElem?_set_self (by
          rw [List.getElem?_eq_some_iff] at h1; exact h1.1)]
        simp only [Option.bind_some]
        rw [List.getElem?_set_self h2]
      · rw [if_neg hs]
        by_cases h1e : (slot a b).1 = p.1
        · have h2e : (slot a b).2 ≠ p.2 := fun h => hs (Prod.ext h1e h)
          rw [h1e, List.getElem?_set_self (by
            rw [List.getElem?_eq_some_iff] at h1; exact h1.1), h1]
          simp only [Option.bind_some]
          rw [List.getElem?_set_ne (Ne.symm h2e)]
        · rw [List.getElem?_set_ne (Ne.symm h1e)]
    rw [f1] at key
    by_cases hs : slot a b = p
    · rw [if_pos hs] at key
      have hcond := (slot_inj hab hij).1 (hp ▸ hs)
      rw [if_pos ⟨hab, hcond⟩]
      simp only [Option.some.injEq] at key
      rw [key]
    · rw [if_neg hs, f0] at key
      rw [if_neg (fun hc => hs (by rw [hp]; exact (slot_inj hab hij).2 hc.2))]
      simp only [Option.some.injEq] at key
      rw [e0, key]

theorem get_self (big : D) (m : DistMatrix D) (i : Nat) : m.get big i i = .ok big := by
  unfold get; simp

theorem TableFor.wf {big : D} {m : DistMatrix D} (h : TableFor big k m) (hk : 2 ≤ k) :
    WF k m := by
  obtain ⟨m0, hist, h0, hh, h1⟩ := h
  obtain ⟨m0', e0, w0, g0⟩ := create_wf (big := big) (k := k) (by omega)
  rw [h0] at e0
  simp only [Except.ok.injEq] at e0
  subst e0
  clear h0 g0
  induction hist generalizing m0 with
  | nil => simp only [writes, Except.ok.injEq] at h1; exact h1 ▸ w0
  | cons w l ih =>
    obtain ⟨i, j, v⟩ := w
    obtain ⟨q1, q2, q3⟩ := hh (i, j, v) (by simp)
    obtain ⟨m2, e2, w2, _⟩ := set_spec (big := big) w0 q1 q2 q3 v
    simp only [writes, e2] at h1
    exact ih m2 (fun w hw' => hh w (by simp [hw'])) h1 w2

/-! ### compute_dist -/

theorem mem_pairs {i j : Fin k} : (i, j) ∈ pairs k ↔ i < j := by
  unfold pairs
  simp [List.mem_flatMap]

/-- Result of the double loop over a list of pairs of distinct clusters. -/
theorem computeLoop_spec [Field D] [LinearOrder D] {big : D} {eucl : Row R n → Row R n → D}
    {cents : Fin k → Row R n} (l : List (Fin k × Fin k)) (hl : ∀ p ∈ l, p.1 < p.2) :
    ∀ (m : DistMatrix D) (sv : Fin k → D), WF k m →
    ∃ m' sv', computeLoop eucl cents l (m, sv) = .ok (m', sv') ∧ WF k m' ∧
      (∀ a b : Fin k, a < b → (a, b) ∈ l →
        m'.get big a b = .ok (eucl (cents a) (cents b) / 2)) ∧
      (∀ a b : Fin k, a < b → (a, b) ∉ l → m'.get big a b = m.get big a b) ∧
      (∀ a b : Fin k, m'.get big a b = m'.get big b a ∨
        (m'.get big a b = m.get big a b ∧ m'.get big b a = m.get big b a)) ∧
      (∀ c, sv' c ≤ sv c) ∧
      (∀ a b : Fin k, (a, b) ∈ l → sv' a ≤ eucl (cents a) (cents b) / 2 ∧
        sv' b ≤ eucl (cents a) (cents b) / 2) ∧
      (∀ c, sv' c = sv c ∨ ∃ a b : Fin k, (a, b) ∈ l ∧ (c = a ∨ c = b) ∧
        sv' c = eucl (cents a) (cents b) / 2) := by
  induction l with
  | nil =>
    intro m sv h
    exact ⟨m, sv, rfl, h, by simp, fun _ _ _ _ => rfl, fun _ _ => Or.inr ⟨rfl, rfl⟩,
      fun _ => le_refl _, by simp, fun _ => Or.inl rfl⟩
  | cons p l ih =>
    intro m sv h
    obtain ⟨i, j⟩ := p
    have hij : i < j := hl (i, j) (by simp)
    have hne : i.val ≠ j.val := by
      have : i.val < j.val := hij
      omega
    set d := eucl (cents i) (cents j) / 2 with hd
    obtain ⟨m1, e1, w1, g1⟩ := set_spec (big := big) h i.isLt j.isLt hne d
    set sv1 := if d < sv i then Function.update sv i d else sv with hsv1
    set sv2 := if d < sv1 j then Function.update sv1 j d else sv1 with hsv2
    have hs1 : ∀ c, sv1 c = if c = i then min (sv i) d else sv c := by
      intro c
      rw [hsv1]
      by_cases hlt : d < sv i
      · rw [if_pos hlt]
        by_cases hc : c = i
        · subst hc; simp [hlt.le]
        · simp [hc]
      · rw [if_neg hlt]
        by_cases hc : c = i
        · subst hc; simp [not_lt.1 hlt]
        · simp [hc]
    have hs2 : ∀ c, sv2 c = if c = j then min (sv1 j) d else sv1 c := by
      intro c
      rw [hsv2]
      by_cases hlt : d < sv1 j
      · rw [if_pos hlt]
        by_cases hc : c = j
        · subst hc; simp [hlt.le]
        · simp [hc]
      · rw [if_neg hlt]
        by_cases hc : c = j
        · subst hc; simp [not_lt.1 hlt]
        · simp [hc]
    obtain ⟨m', sv', e, w, a1, a2, a2', a3, a4, a5⟩ :=
      ih (fun p hp => hl p (List.mem_cons_of_mem _ hp)) m1 sv2 w1
    have hsvle : ∀ c, sv2 c ≤ sv c := by
      intro c
      rw [hs2]
      split
      · rename_i hc; subst hc
        rw [hs1]; split
        · rename_i hc; subst hc; exact le_trans (min_le_left _ _) (min_le_left _ _)
        · exact min_le_left _ _
      · rw [hs1]; split
        · rename_i hc; subst hc; exact min_le_left _ _
        · exact le_refl _
    have hji : j ≠ i := fun h => hne (by rw [h])
    have hsi : sv2 i ≤ d := by
      rw [hs2, if_neg (Ne.symm hji), hs1, if_pos rfl]; exact min_le_right _ _
    have hsj : sv2 j ≤ d := by
      rw [hs2, if_pos rfl]; exact min_le_right _ _
    refine ⟨m', sv', ?_, w, ?_, ?_, ?_, fun c => le_trans (a3 c) (hsvle c), ?_, ?_⟩
    · rw [computeLoop]
      simp only
      rw [← hd, e1]
      simp only
      exact e
    · intro a b hab hm
      by_cases hin : (a, b) ∈ l
      · exact a1 a b hab hin
      · rw [a2 a b hab hin, g1 a b a.isLt b.isLt]
        rcases List.mem_cons.1 hm with hp | hp
        · rw [Prod.mk.injEq] at hp
          rw [hp.1, hp.2, if_pos ⟨hne, Or.inl ⟨rfl, rfl⟩⟩]
        · exact absurd hp hin
    · intro a b hab hm
      rw [List.mem_cons, not_or] at hm
      rw [a2 a b hab hm.2, g1 a b a.isLt b.isLt, if_neg]
      rintro ⟨_, ⟨h1, h2⟩ | ⟨h1, h2⟩⟩
      · exact hm.1 (by rw [Fin.ext h1, Fin.ext h2])
      · have e1 := Fin.ext h1
        have e2 := Fin.ext h2
        subst e1; subst e2
        exact absurd (lt_trans hab hij) (lt_irrefl _)
    · intro a b
      rcases a2' a b with h | ⟨h1, h2⟩
      · exact Or.inl h
      · rw [h1, h2, g1 a b a.isLt b.isLt, g1 b a b.isLt a.isLt]
        by_cases hcond : a.val ≠ b.val ∧ ((a.val = i.val ∧ b.val = j.val) ∨
            (a.val = j.val ∧ b.val = i.val))
        · left
          rw [if_pos hcond, if_pos ⟨Ne.symm hcond.1, by
            rcases hcond.2 with ⟨x, y⟩ | ⟨x, y⟩
            · exact Or.inr ⟨y, x⟩
            · exact Or.inl ⟨y, x⟩⟩]
        · right
          rw [if_neg hcond, if_neg (fun hc => hcond ⟨Ne.symm hc.1, by
            rcases hc.2 with ⟨x, y⟩ | ⟨x, y⟩
            · exact Or.inr ⟨y, x⟩
            · exact Or.inl ⟨y, x⟩⟩)]
          exact ⟨rfl, rfl⟩
    · intro a b hm
      rcases List.mem_cons.1 hm with hp | hp
      · rw [Prod.mk.injEq] at hp
        rw [hp.1, hp.2]
        exact ⟨le_trans (a3 i) hsi, le_trans (a3 j) hsj⟩
      · exact a4 a b hp
    · intro c
      rcases a5 c with h | ⟨a, b, hm, hc, he⟩
      · have : sv2 c = sv c ∨ ((c = i ∨ c = j) ∧ sv2 c = d) := by
          rw [hs2]
          by_cases hcj : c = j
          · rw [if_pos hcj, hs1, if_neg hji, hcj]
            rcases min_choice (sv j) d with h' | h'
            · left; exact h'
            · right; exact ⟨Or.inr rfl, h'⟩
          · rw [if_neg hcj, hs1]
            by_cases hci : c = i
            · rw [if_pos hci, hci]
              rcases min_choice (sv i) d with h' | h'
              · left; exact h'
              · right; exact ⟨Or.inl rfl, h'⟩
            · rw [if_neg hci]; left; rfl
        rcases this with h' | ⟨h1, h2⟩
        · left; rw [h, h']
        · right; exact ⟨i, j, by simp, h1, by rw [h, h2]⟩
      · right; exact ⟨a, b, List.mem_cons_of_mem _ hm, hc, he⟩

/-- Result of `compute_dist`. -/
theorem computeDist_spec [Field D] [LinearOrder D] {big : D} {eucl : Row R n → Row R n → D}
    {cents : Fin k → Row R n} (hk : 1 < k) (hsym : ∀ x y, eucl x y = eucl y x)
    (m : DistMatrix D) (sv : Fin k → D) (h : WF k m) :
    ∃ m' sv', computeDist big eucl cents m sv = .ok (m', sv') ∧ WF k m' ∧
      (∀ a b : Fin k, a ≠ b → m'.get big a b = .ok (eucl (cents a) (cents b) / 2)) ∧
      (∀ a b : Fin k, a ≠ b → sv' a ≤ eucl (cents a) (cents b) / 2) ∧
      (∀ c, sv' c ≤ big) ∧
      (∀ c, sv' c = big ∨ ∃ b, b ≠ c ∧ sv' c = eucl (cents c) (cents b) / 2) := by
  obtain ⟨m', sv', e, w, a1, _, a2', a3, a4, a5⟩ := computeLoop_spec (big := big) (eucl := eucl)
    (cents := cents) (pairs k) (fun p hp => mem_pairs.1 (by simpa using hp)) m (fun _ => big) h
  refine ⟨m', sv', ?_, w, ?_, ?_, a3, ?_⟩
  · unfold computeDist
    rw [if_neg (by omega), if_neg (by rw [h.rows]; simp)]
    exact e
  · intro a b hab
    rcases lt_or_gt_of_ne hab with hlt | hlt
    · exact a1 a b hlt (mem_pairs.2 hlt)
    · have hba := a1 b a hlt (mem_pairs.2 hlt)
      obtain ⟨v1, e1, f1⟩ := get_eq (big := big) w a.isLt b.isLt (fun h => hab (Fin.ext h))
      obtain ⟨v2, e2, f2⟩ := get_eq (big := big) w b.isLt a.isLt
        (fun h => hab (Fin.ext h.symm))
      have hs : slot a.val b.val = slot b.val a.val := by unfold slot; rw [min_comm, max_comm]
      rw [hs, f2] at f1
      rw [e1, ← Option.some.inj f1, ← e2, hba, hsym]
  · intro a b hab
    rcases lt_or_gt_of_ne hab with hlt | hlt
    · exact (a4 a b (mem_pairs.2 hlt)).1
    · rw [hsym]; exact (a4 b a (mem_pairs.2 hlt)).2
  · intro c
    rcases a5 c with h | ⟨a, b, hm, hc, he⟩
    · exact Or.inl h
    · right
      have hlt := mem_pairs.1 hm
      rcases hc with rfl | rfl
      · exact ⟨b, ne_of_gt hlt, he⟩
      · exact ⟨a, ne_of_lt hlt, by rw [he, hsym]⟩

end Knor.DistMatrix
