import Verif.Model.Skmeans
import Verif.Lemmas.ParDet
import Verif.Spec.Scale

namespace Knor.Skmeans

open Knor Knor.Par Knor.Partition Knor.Kmeans

variable {R D : Type _} {k n : Nat}

/-- Running minimum. -/
theorem foldl_min [LinearOrder R] {ι : Type _} (f : ι → R) (l : List ι) (a : R) :
    let m := l.foldl (fun g i => if f i < g then f i else g) a
    m ≤ a ∧ (∀ i ∈ l, m ≤ f i) ∧ (m = a ∨ ∃ i ∈ l, m = f i) := by
  induction l generalizing a with
  | nil => simp
  | cons i l ih =>
    simp only [List.foldl_cons, List.mem_cons]
    obtain ⟨h1, h2, h3⟩ := ih (if f i < a then f i else a)
    have hle : (if f i < a then f i else a) ≤ a ∧ (if f i < a then f i else a) ≤ f i := by
      split
      · next h => exact ⟨le_of_lt h, le_refl _⟩
      · next h => exact ⟨le_refl _, not_lt.1 h⟩
    refine ⟨le_trans h1 hle.1, ?_, ?_⟩
    · rintro x (rfl | hx)
      · exact le_trans h1 hle.2
      · exact h2 x hx
    · rcases h3 with h3 | ⟨x, hx, h3⟩
      · by_cases h : f i < a
        · right; refine ⟨i, Or.inl rfl, ?_⟩; rw [h3, if_pos h]
        · left; rw [h3, if_neg h]
      · exact Or.inr ⟨x, Or.inr hx, h3⟩

/-- Running maximum. -/
theorem foldl_max [LinearOrder R] {ι : Type _} (f : ι → R) (l : List ι) (a : R) :
    let m := l.foldl (fun g i => if g < f i then f i else g) a
    a ≤ m ∧ (∀ i ∈ l, f i ≤ m) ∧ (m = a ∨ ∃ i ∈ l, m = f i) := by
  have := foldl_min (R := Rᵒᵈ) (fun i => OrderDual.toDual (f i)) l (OrderDual.toDual a)
  exact this

theorem foldl_pair {ι : Type _} (f g : R → ι → R) (l : List ι) (a b : R) :
    l.foldl (fun p i => (f p.1 i, g p.2 i)) (a, b) = (l.foldl f a, l.foldl g b) := by
  induction l generalizing a b with
  | nil => rfl
  | cons i l ih => simp [ih]

/-- The whole-column bounds the code computes. -/
structure GoodBounds [LinearOrder R] (big tiny : R) (N : Nat) (data : Nat → Row R n)
    (g : Bounds R n) : Prop where
  lo : ∀ j, (g j).1 ≤ big ∧ (∀ r, r < N → (g j).1 ≤ data r j) ∧
    ((g j).1 = big ∨ ∃ r, r < N ∧ (g j).1 = data r j)
  hi : ∀ j, tiny ≤ (g j).2 ∧ (∀ r, r < N → data r j ≤ (g j).2) ∧
    ((g j).2 = tiny ∨ ∃ r, r < N ∧ (g j).2 = data r j)

theorem foldl_bounds_apply [LinearOrder R] (data : Nat → Row R n) (l : List Nat) (b : Bounds R n)
    (j : Fin n) :
    l.foldl (fun (a : Bounds R n) r j => boundsEntry (a j) (Fl.fin (data r j))) b j =
      (l.foldl (fun g r => if data r j < g then data r j else g) (b j).1,
       l.foldl (fun g r => if g < data r j then data r j else g) (b j).2) := by
  induction l generalizing b with
  | nil => rfl
  | cons r l ih => simp only [List.foldl_cons]; rw [ih]; rfl

theorem reduceBounds_apply [LinearOrder R] (l : List Nat) (b : Nat → Bounds R n)
    (g : Bounds R n) (j : Fin n) :
    l.foldl (fun g t j =>
      (if (b t j).1 < (g j).1 then (b t j).1 else (g j).1,
       if (g j).2 < (b t j).2 then (b t j).2 else (g j).2)) g j =
      (l.foldl (fun x t => if (b t j).1 < x then (b t j).1 else x) (g j).1,
       l.foldl (fun x t => if x < (b t j).2 then (b t j).2 else x) (g j).2) := by
  induction l generalizing g with
  | nil => rfl
  | cons t l ih => simp only [List.foldl_cons]; rw [ih]

theorem preprocess_closed [Field R] [LinearOrder R] {big tiny : R} {data : Nat → Row R n}
    {N nt : Nat} {s1 s2 : List Nat} (hn : 0 < N) (hnt : 0 < nt) (hlt : N < 4294967296)
    (hc1 : Complete (effThreads nt N) (threadRows N nt) s1)
    (hc2 : Complete (effThreads nt N) (threadRows N nt) s2) :
    ∃ rows g, preprocess big tiny data N nt s1 s2 = .ok rows ∧ GoodBounds big tiny N data g ∧
      (∀ r, r < N → ∀ j, rows r j = scaleEntry (g j).1 (g j).2 (.fin (data r j))) ∧
      ∀ r, N ≤ r → ∀ j, rows r j = .fin (data r j) := by
  have hsp := split_threadRows hn hnt hlt
  obtain ⟨p, hp, hpm, hpo, hpa⟩ := run_det (f := boundsRow (R := R) (n := n))
    (g := fun _ x => .ok x) (h := fun _ x _ b j => boundsEntry (b j) (x j))
    (fun _ _ _ => rfl)
    (s0 := { mem := fun r j => .fin (data r j), acc := fun _ => initBounds big tiny
             todo := threadRows N nt }) hsp hc1 (fun r _ => ⟨_, rfl⟩)
  have hmem : p.mem = fun r j => .fin (data r j) := by
    funext r
    by_cases hr : r < N
    · have := hpm r hr
      simp only [Except.ok.injEq] at this
      exact this.symm
    · exact hpo r (by omega)
  obtain ⟨q, hq, hqm, hqo, -⟩ := run_det
    (f := normRow (reduceBounds big tiny (effThreads nt N) p.acc))
    (g := fun _ x => .ok fun j => scaleEntry (reduceBounds big tiny (effThreads nt N) p.acc j).1
      (reduceBounds big tiny (effThreads nt N) p.acc j).2 (x j)) (h := fun _ _ _ u => u)
    (fun _ _ _ => rfl)
    (s0 := { mem := p.mem, acc := fun _ => (), todo := threadRows N nt }) hsp hc2
    (fun r _ => ⟨_, rfl⟩)
  refine ⟨q.mem, reduceBounds big tiny (effThreads nt N) p.acc, ?_, ?_, ?_, ?_⟩
  · simp [preprocess, hp, hq]
  · have hacc : ∀ t j, p.acc t j =
        ((threadRows N nt t).foldl (fun g r => if data r j < g then data r j else g) big,
         (threadRows N nt t).foldl (fun g r => if g < data r j then data r j else g) tiny) := by
      intro t j
      rw [hpa t]
      simp only
      rw [foldl_bounds_apply data]
      rfl
    have hmemi : ∀ r, r < N ↔ ∃ t, t < effThreads nt N ∧ r ∈ threadRows N nt t := by
      intro r
      rw [← List.mem_range, ← hsp.perm.mem_iff, List.mem_flatMap]
      simp [List.mem_range]
    refine ⟨fun j => ?_, fun j => ?_⟩
    · unfold reduceBounds
      rw [reduceBounds_apply]
      obtain ⟨h1, h2, h3⟩ := foldl_min (fun t => (p.acc t j).1) (List.range (effThreads nt N))
        ((initBounds big tiny : Bounds R n) j).1
      refine ⟨h1, ?_, ?_⟩
      · intro r hr
        obtain ⟨t, ht, hrt⟩ := (hmemi r).1 hr
        refine le_trans (h2 t (List.mem_range.2 ht)) ?_
        rw [hacc t j]
        exact (foldl_min (fun r => data r j) (threadRows N nt t) big).2.1 r hrt
      · rcases h3 with h3 | ⟨t, ht, h3⟩
        · exact Or.inl h3
        · have hpt : (p.acc t j).1 = _ := congrArg Prod.fst (hacc t j)
          rcases (foldl_min (fun r => data r j) (threadRows N nt t) big).2.2 with h4 | ⟨r, hr, h4⟩
          · left; exact h3.trans (hpt.trans h4)
          · right
            exact ⟨r, (hmemi r).2 ⟨t, List.mem_range.1 ht, hr⟩, h3.trans (hpt.trans h4)⟩
    · unfold reduceBounds
      rw [reduceBounds_apply]
      obtain ⟨h1, h2, h3⟩ := foldl_max (fun t => (p.acc t j).2) (List.range (effThreads nt N))
        ((initBounds big tiny : Bounds R n) j).2
      refine ⟨h1, ?_, ?_⟩
      · intro r hr
        obtain ⟨t, ht, hrt⟩ := (hmemi r).1 hr
        refine le_trans ?_ (h2 t (List.mem_range.2 ht))
        rw [hacc t j]
        exact (foldl_max (fun r => data r j) (threadRows N nt t) tiny).2.1 r hrt
      · rcases h3 with h3 | ⟨t, ht, h3⟩
        · exact Or.inl h3
        · have hpt : (p.acc t j).2 = _ := congrArg Prod.snd (hacc t j)
          rcases (foldl_max (fun r => data r j) (threadRows N nt t) tiny).2.2 with h4 | ⟨r, hr, h4⟩
          · left; exact h3.trans (hpt.trans h4)
          · right
            exact ⟨r, (hmemi r).2 ⟨t, List.mem_range.1 ht, hr⟩, h3.trans (hpt.trans h4)⟩
  · intro r hr j
    have := hqm r hr
    simp only [Except.ok.injEq] at this
    rw [← this, hmem]
  · intro r hr j
    rw [hqo r hr, hmem]

end Knor.Skmeans
