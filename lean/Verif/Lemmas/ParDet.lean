import Verif.Lemmas.Split
import Verif.Lemmas.Clusters

/-! Phases whose row function does not depend on the accumulator: closed form and merging. -/

namespace Knor.Par

open Knor

variable {μ α : Type _}

theorem run_det {f : Nat → μ → α → Res (μ × α)} {g : Nat → μ → Res μ} {h : Nat → μ → μ → α → α}
    (hf : ∀ r m a, f r m a = match g r m with
      | .error e => .error e
      | .ok m' => .ok (m', h r m m' a))
    {N T : Nat} {s0 : State μ α} (hsp : Split N T s0.todo) {sched : List Nat}
    (hc : Complete T s0.todo sched) (hg : ∀ r, r < N → ∃ m', g r (s0.mem r) = .ok m') :
    ∃ s', run f s0 sched = .ok s' ∧ (∀ r, r < N → g r (s0.mem r) = .ok (s'.mem r)) ∧
      (∀ r, N ≤ r → s'.mem r = s0.mem r) ∧
      (∀ t, s'.acc t = (s0.todo t).foldl (fun a r => h r (s0.mem r) (s'.mem r) a) (s0.acc t)) := by
  classical
  let newMem : Nat → μ := fun r => match g r (s0.mem r) with
    | .error _ => s0.mem r
    | .ok m' => m'
  have hnew : ∀ r, r < N → g r (s0.mem r) = .ok (newMem r) := by
    intro r hr
    obtain ⟨m', hm'⟩ := hg r hr
    simp only [newMem, hm']
  obtain ⟨s', h1, _, h3, h4, h5⟩ := run_complete (f := f) (T := T) (s0 := s0) (newMem := newMem)
    (upd := fun r a => h r (s0.mem r) (newMem r) a) hsp.disjoint hsp.idle
    (by
      intro t r a hr
      have hrN : r < N := (hsp.mem_iff r).1 ⟨t, hr⟩
      rw [hf, hnew r hrN])
    hc
  have hmem : ∀ r, r < N → s'.mem r = newMem r := by
    intro r hr
    obtain ⟨t, ht⟩ := (hsp.mem_iff r).2 hr
    exact h3 t r ht
  refine ⟨s', h1, ?_, ?_, ?_⟩
  · intro r hr; rw [hmem r hr]; exact hnew r hr
  · intro r hr; exact h4 r fun t ht => by have := (hsp.mem_iff r).1 ⟨t, ht⟩; omega
  · intro t
    rw [h5 t]
    apply List.foldl_ext
    intro a r hr
    rw [hmem r ((hsp.mem_iff r).1 ⟨t, hr⟩)]

theorem run_det_fails {f : Nat → μ → α → Res (μ × α)} {g : Nat → μ → Res μ}
    {h : Nat → μ → μ → α → α}
    (hf : ∀ r m a, f r m a = match g r m with
      | .error e => .error e
      | .ok m' => .ok (m', h r m m' a))
    {N T : Nat} {s0 : State μ α} (hsp : Split N T s0.todo) {sched : List Nat}
    (hc : Complete T s0.todo sched) {e0 : Fault}
    (he : ∀ r e, r < N → g r (s0.mem r) = .error e → e = e0)
    {r0 : Nat} (hr0 : r0 < N) (hbad : ∀ m', g r0 (s0.mem r0) ≠ .ok m') :
    run f s0 sched = .error e0 := by
  let newMem : Nat → μ := fun r => match g r (s0.mem r) with
    | .error _ => s0.mem r
    | .ok m' => m'
  obtain ⟨t0, ht0⟩ := (hsp.mem_iff r0).2 hr0
  refine run_fails (newMem := newMem) (upd := fun r a => h r (s0.mem r) (newMem r) a)
    (good := fun r => ∃ m', g r (s0.mem r) = .ok m') hsp.disjoint hsp.idle ?_ ?_ ht0
    (fun ⟨m', hm'⟩ => hbad m' hm') hc
  · rintro t r a _ ⟨m', hm'⟩
    rw [hf]
    simp only [newMem, hm']
  · intro t r a hr hng
    have hrN : r < N := (hsp.mem_iff r).1 ⟨t, hr⟩
    rw [hf]
    cases hgr : g r (s0.mem r) with
    | ok m' => exact absurd ⟨m', hgr⟩ hng
    | error e => simp only [he r e hrN hgr]

end Knor.Par

namespace Knor.Kmeans

open Knor Knor.Par

variable {R : Type _} {k n : Nat}

/-- A row update that adds fixed amounts to the accumulators. -/
structure RowDelta [AddCommMonoid R] (u : Acc R k n → Acc R k n) (δ : Fin k → Fin n → R)
    (ν : Fin k → Int) (χ : Nat) : Prop where
  changed : ∀ a, (u a).changed = a.changed + χ
  means : ∀ a c j, (u a).loc.means c j = a.loc.means c j + δ c j
  num : ∀ a c, (u a).loc.num c = a.loc.num c + ν c

theorem fold_delta [AddCommMonoid R] {u : Nat → Acc R k n → Acc R k n}
    {δ : Nat → Fin k → Fin n → R} {ν : Nat → Fin k → Int} {χ : Nat → Nat} (l : List Nat)
    (h : ∀ r ∈ l, RowDelta (u r) (δ r) (ν r) (χ r)) :
    ∀ a : Acc R k n,
      (l.foldl (fun a r => u r a) a).changed = a.changed + (l.map χ).sum ∧
      (∀ c j, (l.foldl (fun a r => u r a) a).loc.means c j
        = a.loc.means c j + (l.map fun r => δ r c j).sum) ∧
      (∀ c, (l.foldl (fun a r => u r a) a).loc.num c
        = a.loc.num c + (l.map fun r => ν r c).sum) := by
  induction l with
  | nil => intro a; simp
  | cons x l ih =>
    intro a
    have hx := h x (by simp)
    obtain ⟨h1, h2, h3⟩ := ih (fun r hr => h r (List.mem_cons_of_mem _ hr)) (u x a)
    simp only [List.foldl_cons, List.map_cons, List.sum_cons]
    refine ⟨?_, ?_, ?_⟩
    · rw [h1, hx.changed]; omega
    · intro c j; rw [h2, hx.means, add_assoc]
    · intro c; rw [h3, hx.num, add_assoc]

theorem foldl_map2 {α β γ : Type _} (f : γ → β → γ) (g : α → β) (l : List α) :
    ∀ x, l.foldl (fun s t => f s (g t)) x = (l.map g).foldl f x := by
  induction l with
  | nil => simp
  | cons a l ih => intro x; simp [ih]

theorem foldl_add2 {M ι : Type _} [AddCommMonoid M] (f : ι → M) (l : List ι) :
    ∀ m, l.foldl (fun m t => m + f t) m = m + (l.map f).sum := by
  induction l with
  | nil => simp
  | cons a l ih => intro m; simp [ih, add_assoc]

/-- Merging the workers' accumulators in thread order, for any split of the rows. -/
theorem merge_delta [AddCommMonoid R] {N T : Nat} {todo : Nat → List Nat} (hsp : Split N T todo)
    {u : Nat → Acc R k n → Acc R k n}
    {δ : Nat → Fin k → Fin n → R} {ν : Nat → Fin k → Int} {χ : Nat → Nat}
    (h : ∀ r, r < N → RowDelta (u r) (δ r) (ν r) (χ r))
    (acc : Nat → Acc R k n)
    (hacc : ∀ t, acc t = (todo t).foldl (fun a r => u r a) Acc.init)
    (start : Clusters R k n) (m0 : Nat) :
    let merged := (List.range T).foldl (fun x t => Clusters.peq x (acc t).loc) start
    (List.range T).foldl (fun m t => m + (acc t).changed) m0
        = m0 + ∑ r ∈ Finset.range N, χ r ∧
    merged.complete = start.complete ∧
    (∀ c j, merged.means c j = start.means c j + ∑ r ∈ Finset.range N, δ r c j) ∧
    (∀ c, merged.num c = start.num c + ∑ r ∈ Finset.range N, ν r c) := by
  have hrow : ∀ t, ∀ r ∈ todo t, RowDelta (u r) (δ r) (ν r) (χ r) := fun t r hr =>
    h r ((hsp.mem_iff r).1 ⟨t, hr⟩)
  have hch : ∀ t, (acc t).changed = ((todo t).map χ).sum := by
    intro t; rw [hacc t, (fold_delta (todo t) (hrow t) _).1]; simp [Acc.init]
  have hme : ∀ t c j, (acc t).loc.means c j = ((todo t).map fun r => δ r c j).sum := by
    intro t c j; rw [hacc t, (fold_delta (todo t) (hrow t) _).2.1]
    simp [Acc.init, Clusters.empty]
  have hnu : ∀ t c, (acc t).loc.num c = ((todo t).map fun r => ν r c).sum := by
    intro t c; rw [hacc t, (fold_delta (todo t) (hrow t) _).2.2]
    simp [Acc.init, Clusters.empty]
  obtain ⟨m1, m2, m3⟩ := Clusters.foldl_peq ((List.range T).map fun t => (acc t).loc) start
  simp only
  rw [foldl_map2 Clusters.peq (fun t => (acc t).loc)]
  refine ⟨?_, m1, ?_, ?_⟩
  · rw [foldl_add2, ← hsp.sum χ]
    simp only [hch]
  · intro c j
    rw [m2, List.map_map, ← hsp.sum fun r => δ r c j]
    congr 2
    apply List.map_congr_left
    intro t _
    exact hme t c j
  · intro c
    rw [m3, List.map_map, ← hsp.sum fun r => ν r c]
    congr 2
    apply List.map_congr_left
    intro t _
    exact hnu t c

end Knor.Kmeans
