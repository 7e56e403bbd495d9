import Verif.Spec.NearBest
import Verif.Props.SeedDriver
import Verif.Props.PrunedDouble
import Verif.Lemmas.MedoidNear

/-! # Lemmas about several k-means++ starts on doubles -/

namespace Knor.MultiStart

open Knor Knor.Init Knor.Par Knor.Spec Knor.Partition

section Any

variable {R D : Type _} {k n : Nat}

/-- The energy that is computed from a state. -/
def enOf [Zero D] [Add D] (N : Nat) (p : Kpp R D k n) : D :=
  (List.range N).foldl (fun e r => e + (p.slots r).dist) 0

/-- The outcome of the driver over starts `0 .. m-1` for any arithmetic whose numbers have values. -/
structure BestAny [Zero D] [Add D] (val : D → ℝ) (N m : Nat) (st : Nat → Kpp R D k n) (best : Nat × D × Copy R k n) :
    Prop where
  index : 1 ≤ best.1 ∧ best.1 ≤ m
  energy : best.2.1 = enOf N (st (best.1 - 1))
  min : ∀ i, i < m → val best.2.1 ≤ val (enOf N (st i))
  first : ∀ i, i < best.1 - 1 → val best.2.1 < val (enOf N (st i))
  copy : best.2.2 = ⟨fun r => ((st (best.1 - 1)).slots r).assign,
    fun c => (Spec.count N (fun r => ((st (best.1 - 1)).slots r).assign) c : Int),
    (st (best.1 - 1)).cltrs.means⟩

variable [Zero R] [Zero D] [Add D] [Sub D] [Mul D] [Div D] [NatCast D] [LT D] [DecidableLT D] [LE D] [DecidableLE D]
  {dist : Row R n → Row R n → D} {big : D} {data : Nat → Row R n} {N nt T : Nat} {todo : Nat → List Nat}
  {w : Nat → Draws D} {G : Nat → Kpp R D k n → Prop} {fin : D → Prop} {val : D → ℝ}

omit [Zero R] in
theorem init_any (hkpp : ∀ i (s : Kpp R D k n), (∀ r, r < N → (s.slots r).dist = big) →
      ∃ p, kpp dist data N nt T todo (w i).sched (w i).first (w i).u s = .ok p ∧ G i p)
    {keeps : Bool} (i : Nat) {s : St R D k n} (hkeep : keeps = true ∨ N ≤ s.asize)
    (hs : ∀ r, r < N → (s.kpp.slots r).dist = big) :
    ∃ p, St.init keeps dist data N nt T todo (w i) s = .ok { s with kpp := p } ∧ G i p := by
  obtain ⟨p, e, h⟩ := hkpp i s.kpp hs
  refine ⟨p, ?_, h⟩
  unfold St.init
  rw [if_neg, e]
  rcases hkeep with rfl | h
  · simp
  · simp only [Bool.and_eq_true, Bool.not_eq_true', decide_eq_true_eq, not_and, not_lt]
    exact fun _ => h

theorem startLoop_any (hkpp : ∀ i (s : Kpp R D k n), (∀ r, r < N → (s.slots r).dist = big) →
      ∃ p, kpp dist data N nt T todo (w i).sched (w i).first (w i).u s = .ok p ∧ G i p)
    (hG : ∀ i p, G i p → fin (enOf N p) ∧ ∀ r, r < N → ∃ c, (p.slots r).assign = some c)
    (hlt : ∀ x y, fin x → fin y → (x < y ↔ val x < val y)) :
    ∀ (len m : Nat) (st : Nat → Kpp R D k n) (s : St R D k n) (best : Nat × D × Copy R k n),
      BestAny val N m st best → (∀ i, i < m → G i (st i)) →
      ∃ st' best', startLoop true dist big data N nt T todo w (List.range' m len) s best = .ok best' ∧
        BestAny val N (m + len) st' best' ∧ ∀ i, i < m + len → G i (st' i) := by
  intro len
  induction len with
  | zero =>
    intro m st s best hb hst
    exact ⟨st, best, rfl, hb, hst⟩
  | succ len ih =>
    intro m st s best hb hst
    obtain ⟨p, e1, e2⟩ := init_any (keeps := true) hkpp m (s := (⟨⟨Clusters.empty, fun r => if r < N then { s.kpp.slots r with dist := big }
        else s.kpp.slots r⟩, 0, fun _ => 0⟩ : St R D k n)) (Or.inl rfl) (by
        intro r hr
        simp [hr])
    obtain ⟨hf, hass⟩ := hG m p e2
    have et := tally_ok (N := N) (s := (⟨p, 0, fun _ => 0⟩ : St R D k n)) hass
    obtain ⟨st', best', f1, f2, f3⟩ := ih (m + 1) (Function.update st m p)
      (⟨p, 0, fun c => 0 + (Spec.count N (fun r => (p.slots r).assign) c : Int)⟩ : St R D k n)
      (if enOf N p < best.2.1 then
        (m + 1, enOf N p, (⟨p, 0, fun c => 0 + (Spec.count N (fun r => (p.slots r).assign) c : Int)⟩ :
            St R D k n).dump)
        else best) (by
      obtain ⟨⟨b1, b2⟩, b3, b4, b5, b6⟩ := hb
      have hold : ∀ i, i < m → Function.update st m p i = st i := fun i hi =>
        Function.update_of_ne (by omega) _ _
      have hbf : fin best.2.1 := by
        rw [b3]
        exact (hG _ _ (hst (best.1 - 1) (by omega))).1
      split
      · rename_i hlt'
        have hlt'' := (hlt _ _ hf hbf).1 hlt'
        constructor
        · simp
        · simp [Function.update_self]
        · intro i hi
          by_cases him : i = m
          · subst him; simp [Function.update_self]
          · rw [hold i (by omega)]
            exact le_trans (le_of_lt hlt'') (b4 i (by omega))
        · intro i hi
          simp only [Nat.add_sub_cancel] at hi
          rw [hold i hi]
          exact lt_of_lt_of_le hlt'' (b4 i hi)
        · simp [Function.update_self, St.dump]
      · rename_i hlt'
        have hlt'' : val best.2.1 ≤ val (enOf N p) := not_lt.1 fun h => hlt' ((hlt _ _ hf hbf).2 h)
        constructor
        · exact ⟨b1, by omega⟩
        · rw [hold _ (by omega)]; exact b3
        · intro i hi
          by_cases him : i = m
          · subst him; simpa [Function.update_self] using hlt''
          · rw [hold i (by omega)]
            exact b4 i (by omega)
        · intro i hi
          rw [hold i (by omega)]
          exact b5 i hi
        · rw [hold _ (by omega)]; exact b6) (by
      intro i hi
      by_cases him : i = m
      · subst him; rw [Function.update_self]; exact e2
      · rw [Function.update_of_ne him]; exact hst i (by omega))
    refine ⟨st', best', ?_, ?_, ?_⟩
    · rw [List.range'_succ]
      unfold startLoop
      unfold St.reinit
      rw [e1]
      simp only
      rw [et]
      exact f1
    · rw [show m + (len + 1) = m + 1 + len by omega]; exact f2
    · rw [show m + (len + 1) = m + 1 + len by omega]; exact f3

/-- The driver for any arithmetic. -/
theorem kmeansPP_any (hkpp : ∀ i (s : Kpp R D k n), (∀ r, r < N → (s.slots r).dist = big) →
      ∃ p, kpp dist data N nt T todo (w i).sched (w i).first (w i).u s = .ok p ∧ G i p)
    (hG : ∀ i p, G i p → fin (enOf N p) ∧ ∀ r, r < N → ∃ c, (p.slots r).assign = some c)
    (hlt : ∀ x y, fin x → fin y → (x < y ↔ val x < val y)) (keeps : Bool) (nstart : Nat) :
    ((keeps = true ∨ nstart ≤ 1) → ∃ best st, kmeansPP keeps dist big data N nt T todo w nstart = .ok best ∧
      BestAny val N (max 1 nstart) st best ∧ ∀ i, i < max 1 nstart → G i (st i)) ∧
    (keeps = false → 0 < N → 2 ≤ nstart →
      kmeansPP (R := R) (k := k) keeps dist big data N nt T todo w nstart = .error .ub) := by
  obtain ⟨p, e1, e2⟩ := init_any (keeps := keeps) hkpp 0 (s := fresh big N) (Or.inr (le_refl _)) (fun r _ => rfl)
  obtain ⟨hf, hass⟩ := hG 0 p e2
  have et := tally_ok (N := N) (s := (⟨p, N, fun _ => 0⟩ : St R D k n)) hass
  have et2 := tally_ok (N := N) (s := (⟨p, N, fun c => 0 +
    (Spec.count N (fun r => (p.slots r).assign) c : Int)⟩ : St R D k n)) hass
  constructor
  · intro hkeep
    obtain ⟨st, best, f1, f2, f3⟩ := startLoop_any hkpp hG hlt (nstart - 1) 1 (fun _ => p)
      (⟨p, N, fun c => 0 + (Spec.count N (fun r => (p.slots r).assign) c : Int) +
        (Spec.count N (fun r => (p.slots r).assign) c : Int)⟩ : St R D k n)
      (1, enOf N p, (⟨p, N, fun c => 0 + (Spec.count N (fun r => (p.slots r).assign) c : Int)⟩ : St R D k n).dump) (by
        constructor
        · simp
        · rfl
        · intro i _; exact le_refl _
        · intro i hi; simp at hi
        · simp [St.dump]) (by
        intro i hi
        have : i = 0 := by omega
        subst this
        exact e2)
    rw [show 1 + (nstart - 1) = max 1 nstart by omega] at f2 f3
    refine ⟨best, st, ?_, f2, f3⟩
    unfold kmeansPP
    rw [e1]
    simp only
    unfold fresh
    simp only
    rw [et]
    simp only
    rw [et2]
    rcases hkeep with rfl | h1
    · exact f1
    · rw [show nstart - 1 = 0 by omega] at f1 ⊢
      exact f1
  · rintro rfl hn hns
    unfold kmeansPP
    rw [e1]
    simp only
    unfold fresh
    simp only
    rw [et]
    simp only
    rw [et2]
    simp only
    rw [show nstart - 1 = (nstart - 2) + 1 by omega, List.range'_succ]
    unfold startLoop St.reinit St.init
    simp [hn]

end Any

/-! ### The energy on doubles -/

open Knor.Kmeans Knor.NearLloyd Knor.Driver Knor.Medoid

variable {R : Type _} {k n : Nat} [Zero R] [Add R] [Sub R] [Mul R] [Div R] [IntCast R] [NatCast R] [LT R] [LE R]
  {fin : R → Prop} {val : R → ℝ} {sqrt abs' : R → R}

/-- The computed energy, from the smallest computed distances. -/
theorem enOf_near (hI : IeeeDouble fin val sqrt abs') (hk : 0 < k) {dist : Row R n → Row R n → R}
    {dG : (Fin n → ℝ) → (Fin n → ℝ) → ℝ} {γ ζ : ℝ} {N : Nat} {data : Nat → Row R n} (hlt : N < 4294967296)
    (hγ1 : γ ≤ 1) (hζ : 0 ≤ ζ) (hnn : ∀ x y, 0 ≤ dG x y) {p : Kpp R R k n}
    (hfin : ∀ r, r < N → fin (p.slots r).dist)
    (hnear : ∀ r, r < N → ∀ c, 0 ≤ val (dist (data r) (p.cltrs.means c)) ∧
      val (dist (data r) (p.cltrs.means c)) ≤ 2 ^ (900 : Int) ∧
      |val (dist (data r) (p.cltrs.means c)) - dG (fun j => val (data r j)) fun j => val (p.cltrs.means c j)| ≤
        γ * dG (fun j => val (data r j)) (fun j => val (p.cltrs.means c j)) + ζ)
    (hmin : ∀ r, r < N → (∀ c, val (p.slots r).dist ≤ val (dist (data r) (p.cltrs.means c))) ∧
      ∃ c, val (p.slots r).dist = val (dist (data r) (p.cltrs.means c))) :
    fin (enOf N p) ∧ NearEnergy dG (γ + 2 * ((N + 1 : Nat) * 2 ^ (-52 : Int))) (2 * (N * ζ))
      (fun r j => val (data r j)) N (fun c j => val (p.cltrs.means c j)) (val (enOf N p)) := by
  have hne : Nonempty (Fin k) := ⟨⟨0, hk⟩⟩
  have hex : ∀ r, ∃ c : Fin k, IsNearest (fun c => dG (fun j => val (data r j)) fun j => val (p.cltrs.means c j)) c := by
    intro r
    obtain ⟨c, _, h⟩ := Finset.exists_min_image Finset.univ
      (fun c : Fin k => dG (fun j => val (data r j)) fun j => val (p.cltrs.means c j)) Finset.univ_nonempty
    exact ⟨c, fun c' => h c' (Finset.mem_univ _)⟩
  choose near hn using hex
  have hw : ∀ r ∈ Finset.range N, 0 ≤ val (p.slots r).dist ∧ val (p.slots r).dist ≤ 2 ^ (900 : Int) ∧
      |val (p.slots r).dist - dG (fun j => val (data r j)) fun j => val (p.cltrs.means (near r) j)| ≤
        γ * dG (fun j => val (data r j)) (fun j => val (p.cltrs.means (near r) j)) + ζ := by
    intro r hr
    rw [Finset.mem_range] at hr
    obtain ⟨h1, c, h2⟩ := hmin r hr
    obtain ⟨a1, a2, a3⟩ := hnear r hr c
    refine ⟨by rw [h2]; exact a1, by rw [h2]; exact a2, ?_⟩
    obtain ⟨-, -, b3⟩ := hnear r hr (near r)
    have h3 := h1 (near r)
    have h4 := hn r c
    have h5 := (abs_le.1 a3).1
    have h6 := (abs_le.1 b3).2
    have h7 := mul_le_mul_of_nonneg_left h4 (sub_nonneg.2 hγ1)
    dsimp only at h4 h7
    rw [abs_le]
    constructor <;> linarith
  have e : enOf N p = sumSeq ((List.range N).map fun r => (p.slots r).dist) := by
    unfold enOf sumSeq
    rw [List.foldl_map]
  have hV0 : 0 ≤ ∑ r ∈ Finset.range N, val (p.slots r).dist := Finset.sum_nonneg fun r hr => (hw r hr).1
  have hV : ∑ r ∈ Finset.range N, val (p.slots r).dist ≤ N * 2 ^ (900 : Int) := by
    refine (Finset.sum_le_card_nsmul _ _ (2 ^ (900 : Int)) fun r hr => (hw r hr).2.1).trans ?_
    rw [nsmul_eq_mul, Finset.card_range]
  have hl : ((List.range N).map fun r => val (p.slots r).dist).sum = ∑ r ∈ Finset.range N, val (p.slots r).dist := by
    have := list_sum_filter N (fun _ => True) fun r => val (p.slots r).dist
    simpa using this
  have hs := near_seq hI.rounds.toRounds (fun r => (p.slots r).dist) (fun r => val (p.slots r).dist)
    (fun r => val (p.slots r).dist) (m0 := 0) (List.range N)
    (by
      intro r hr
      have hr' := List.mem_range.1 hr
      exact ⟨hfin r hr', (abs_of_nonneg (hw r (Finset.mem_range.2 hr')).1).le, by simp⟩)
    (by
      rw [hl]
      exact near_range hlt (by simp) hV0 hV)
  rw [hl, ← e] at hs
  obtain ⟨c1, -, c3⟩ := close_of_near (w := fun r => val (p.slots r).dist)
    (d := fun r => dG (fun j => val (data r j)) fun j => val (p.cltrs.means (near r) j)) (Finset.Subset.refl _) hlt
    hγ1 hζ hw (fun r _ => hnn _ _) (by simp) hs
  exact ⟨c1, _, ⟨near, fun r _ => hn r, rfl⟩, c3⟩

end Knor.MultiStart
