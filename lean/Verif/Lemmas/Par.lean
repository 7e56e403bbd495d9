import Mathlib.Data.List.Basic
import Mathlib.Data.List.Nodup
import Mathlib.Tactic.Common
import Verif.Model.Par

namespace Knor.Par

open Knor

variable {μ α : Type _}

/-- Invariant of a phase after workers have completed the rows `done t`. -/
structure Inv (todo0 : Nat → List Nat) (mem0 newMem : Nat → μ) (acc0 : Nat → α)
    (upd : Nat → α → α) (s : State μ α) (done : Nat → List Nat) : Prop where
  split : ∀ t, todo0 t = done t ++ s.todo t
  acc : ∀ t, s.acc t = (done t).foldl (fun a r => upd r a) (acc0 t)
  memDone : ∀ t r, r ∈ done t → s.mem r = newMem r
  memTodo : ∀ r, (∀ t, r ∉ done t) → s.mem r = mem0 r

/-- Rows of different workers are different, and no worker has a row twice. -/
structure Disjoint (todo : Nat → List Nat) : Prop where
  nodup : ∀ t, (todo t).Nodup
  disj : ∀ t t' r, r ∈ todo t → r ∈ todo t' → t = t'

theorem step_inv {f : Nat → μ → α → Res (μ × α)} {todo0 : Nat → List Nat}
    {mem0 newMem : Nat → μ} {acc0 : Nat → α} {upd : Nat → α → α} (hd : Disjoint todo0)
    (hf : ∀ t r a, r ∈ todo0 t → f r (mem0 r) a = .ok (newMem r, upd r a))
    {s : State μ α} {done : Nat → List Nat}
    (hi : Inv todo0 mem0 newMem acc0 upd s done) (t : Nat) :
    ∃ s' done', step f s t = .ok s' ∧ Inv todo0 mem0 newMem acc0 upd s' done' ∧
      (s'.todo t).length = (s.todo t).length - 1 ∧ ∀ t', t' ≠ t → s'.todo t' = s.todo t' := by
  unfold step
  cases hq : s.todo t with
  | nil => exact ⟨s, done, rfl, hi, by simp [hq], fun _ _ => rfl⟩
  | cons r rs =>
    have hr0 : r ∈ todo0 t := by rw [hi.split t, hq]; simp
    have hnd : ∀ t', r ∉ done t' := by
      intro t' hm
      have h1 : r ∈ todo0 t' := by rw [hi.split t']; exact List.mem_append_left _ hm
      have h2 := hd.disj _ _ _ hr0 h1
      subst h2
      have h3 := hd.nodup t
      rw [hi.split t, hq] at h3
      have := List.disjoint_of_nodup_append h3
      exact this hm (by simp)
    have hmem : s.mem r = mem0 r := hi.memTodo r hnd
    simp only [hmem, hf t r (s.acc t) hr0]
    refine ⟨_, Function.update done t (done t ++ [r]), rfl, ⟨?_, ?_, ?_, ?_⟩, ?_, ?_⟩
    · intro t'
      by_cases h : t' = t
      · subst h; simp [hi.split t', hq]
      · simp [Function.update_of_ne h, hi.split t']
    · intro t'
      by_cases h : t' = t
      · subst h; simp [hi.acc t']
      · simp [Function.update_of_ne h, hi.acc t']
    · intro t' r' hm
      by_cases hrr : r' = r
      · subst hrr; simp
      · simp only
        rw [Function.update_of_ne hrr]
        by_cases h : t' = t
        · subst h
          simp only [Function.update_self, List.mem_append, List.mem_singleton] at hm
          rcases hm with hm | hm
          · exact hi.memDone _ _ hm
          · exact absurd hm hrr
        · rw [Function.update_of_ne h] at hm
          exact hi.memDone _ _ hm
    · intro r' hm
      have hrr : r' ≠ r := by
        intro h
        subst h
        exact hm t (by simp)
      simp only
      rw [Function.update_of_ne hrr]
      apply hi.memTodo
      intro t' hm'
      refine hm t' ?_
      by_cases h : t' = t
      · subst h; simp [hm']
      · rwa [Function.update_of_ne h]
    · simp
    · intro t' h
      simp [Function.update_of_ne h]

theorem run_inv {f : Nat → μ → α → Res (μ × α)} {todo0 : Nat → List Nat}
    {mem0 newMem : Nat → μ} {acc0 : Nat → α} {upd : Nat → α → α} (hd : Disjoint todo0)
    (hf : ∀ t r a, r ∈ todo0 t → f r (mem0 r) a = .ok (newMem r, upd r a)) (sched : List Nat) :
    ∀ {s : State μ α} {done : Nat → List Nat},
    Inv todo0 mem0 newMem acc0 upd s done →
    ∃ s' done', run f s sched = .ok s' ∧ Inv todo0 mem0 newMem acc0 upd s' done' ∧
      ∀ t, (s'.todo t).length = (s.todo t).length - sched.count t := by
  induction sched with
  | nil => intro s done hi; exact ⟨s, done, rfl, hi, by simp⟩
  | cons t ts ih =>
    intro s done hi
    obtain ⟨s1, d1, h1, h2, h3, h4⟩ := step_inv hd hf hi t
    obtain ⟨s2, d2, h5, h6, h7⟩ := ih h2
    refine ⟨s2, d2, by simp [run, h1, h5], h6, ?_⟩
    intro t'
    rw [h7 t']
    by_cases h : t' = t
    · subst h; rw [h3, List.count_cons_self]; omega
    · rw [h4 t' h, List.count_cons_of_ne (Ne.symm h)]

/-- Closed form of a complete phase: whatever the schedule, the phase succeeds, every row of
every worker got its new slot, other rows are untouched, and each worker's accumulator is the
in-order fold over its rows. -/
theorem run_complete {f : Nat → μ → α → Res (μ × α)} {T : Nat} {s0 : State μ α}
    {newMem : Nat → μ} {upd : Nat → α → α} (hd : Disjoint s0.todo)
    (hT : ∀ t, T ≤ t → s0.todo t = [])
    (hf : ∀ t r a, r ∈ s0.todo t → f r (s0.mem r) a = .ok (newMem r, upd r a))
    {sched : List Nat} (hc : Complete T s0.todo sched) :
    ∃ s', run f s0 sched = .ok s' ∧ Done T s' ∧
      (∀ t r, r ∈ s0.todo t → s'.mem r = newMem r) ∧
      (∀ r, (∀ t, r ∉ s0.todo t) → s'.mem r = s0.mem r) ∧
      (∀ t, s'.acc t = (s0.todo t).foldl (fun a r => upd r a) (s0.acc t)) := by
  have hi0 : Inv s0.todo s0.mem newMem s0.acc upd s0 (fun _ => []) :=
    ⟨by simp, by simp, by simp, by simp⟩
  obtain ⟨s', d, h1, h2, h3⟩ := run_inv hd hf sched hi0
  have htodo : ∀ t, s'.todo t = [] := by
    intro t
    have := h3 t
    by_cases ht : t < T
    · have := hc t ht
      exact List.eq_nil_of_length_eq_zero (by omega)
    · rw [hT t (by omega)] at this
      exact List.eq_nil_of_length_eq_zero (by simpa using this)
  have hdone : ∀ t, d t = s0.todo t := by
    intro t
    have := h2.split t
    rw [htodo t, List.append_nil] at this
    exact this.symm
  refine ⟨s', h1, fun t _ => htodo t, ?_, ?_, ?_⟩
  · intro t r hr; exact h2.memDone t r (by rw [hdone]; exact hr)
  · intro r hr; exact h2.memTodo r (by intro t; rw [hdone]; exact hr t)
  · intro t; rw [h2.acc t, hdone t]

/-- If processing some row fails, the phase fails whatever the schedule. -/
theorem run_fails {f : Nat → μ → α → Res (μ × α)} {T : Nat} {s0 : State μ α}
    {newMem : Nat → μ} {upd : Nat → α → α} {e : Fault} {good : Nat → Prop}
    (hd : Disjoint s0.todo) (hT : ∀ t, T ≤ t → s0.todo t = [])
    (hf : ∀ t r a, r ∈ s0.todo t → good r → f r (s0.mem r) a = .ok (newMem r, upd r a))
    (hfe : ∀ t r a, r ∈ s0.todo t → ¬ good r → f r (s0.mem r) a = .error e)
    {t0 r0 : Nat} (h0 : r0 ∈ s0.todo t0) (hbad : ¬ good r0)
    {sched : List Nat} (hc : Complete T s0.todo sched) : run f s0 sched = .error e := by
  have main : ∀ (sched : List Nat) (s : State μ α) (done : Nat → List Nat),
      Inv s0.todo s0.mem newMem s0.acc upd s done → (∀ t r, r ∈ done t → good r) →
      run f s sched = .error e ∨ ∃ s' done', run f s sched = .ok s' ∧
        Inv s0.todo s0.mem newMem s0.acc upd s' done' ∧ (∀ t r, r ∈ done' t → good r) ∧
        ∀ t, (s'.todo t).length = (s.todo t).length - sched.count t := by
    intro sched
    induction sched with
    | nil => intro s done hi hg; right; exact ⟨s, done, rfl, hi, hg, by simp⟩
    | cons t ts ih =>
      intro s done hi hg
      by_cases hgood : ∀ r, (s.todo t).head? = some r → good r
      · -- one successful step; as in `step_inv`, but only the next row is known to be good
        have hstep : ∃ s1 d1, step f s t = .ok s1 ∧ Inv s0.todo s0.mem newMem s0.acc upd s1 d1 ∧
            (∀ t r, r ∈ d1 t → good r) ∧
            (s1.todo t).length = (s.todo t).length - 1 ∧
            ∀ t', t' ≠ t → s1.todo t' = s.todo t' := by
          unfold step
          cases hq : s.todo t with
          | nil => exact ⟨s, done, rfl, hi, hg, by simp [hq], fun _ _ => rfl⟩
          | cons r rs =>
            have hgr : good r := hgood r (by rw [hq]; rfl)
            have hr0 : r ∈ s0.todo t := by rw [hi.split t, hq]; simp
            have hnd : ∀ t', r ∉ done t' := by
              intro t' hm
              have h1 : r ∈ s0.todo t' := by rw [hi.split t']; exact List.mem_append_left _ hm
              have h2 := hd.disj _ _ _ hr0 h1
              subst h2
              have h3 := hd.nodup t
              rw [hi.split t, hq] at h3
              exact List.disjoint_of_nodup_append h3 hm (by simp)
            have hmem : s.mem r = s0.mem r := hi.memTodo r hnd
            simp only [hmem, hf t r (s.acc t) hr0 hgr]
            refine ⟨_, Function.update done t (done t ++ [r]), rfl, ⟨?_, ?_, ?_, ?_⟩, ?_, ?_, ?_⟩
            · intro t'
              by_cases h : t' = t
              · subst h; simp [hi.split t', hq]
              · simp [Function.update_of_ne h, hi.split t']
            · intro t'
              by_cases h : t' = t
              · subst h; simp [hi.acc t']
              · simp [Function.update_of_ne h, hi.acc t']
            · intro t' r' hm
              by_cases hrr : r' = r
              · subst hrr; simp
              · simp only
                rw [Function.update_of_ne hrr]
                by_cases h : t' = t
                · subst h
                  simp only [Function.update_self, List.mem_append, List.mem_singleton] at hm
                  rcases hm with hm | hm
                  · exact hi.memDone _ _ hm
                  · exact absurd hm hrr
                · rw [Function.update_of_ne h] at hm
                  exact hi.memDone _ _ hm
            · intro r' hm
              have hrr : r' ≠ r := by
                intro h
                subst h
                exact hm t (by simp)
              simp only
              rw [Function.update_of_ne hrr]
              apply hi.memTodo
              intro t' hm'
              refine hm t' ?_
              by_cases h : t' = t
              · subst h; simp [hm']
              · rwa [Function.update_of_ne h]
            · intro t' r' hm
              by_cases h : t' = t
              · subst h
                simp only [Function.update_self, List.mem_append, List.mem_singleton] at hm
                rcases hm with hm | hm
                · exact hg _ _ hm
                · subst hm; exact hgr
              · rw [Function.update_of_ne h] at hm
                exact hg _ _ hm
            · simp
            · intro t' h
              simp [Function.update_of_ne h]
        obtain ⟨s1, d1, h1, h2, hg1, h3, h4⟩ := hstep
        rcases ih s1 d1 h2 hg1 with h5 | ⟨s2, d2, h5, h6, hg2, h7⟩
        · left; simp [run, h1, h5]
        · right
          refine ⟨s2, d2, by simp [run, h1, h5], h6, hg2, ?_⟩
          intro t'
          rw [h7 t']
          by_cases h : t' = t
          · subst h; rw [h3, List.count_cons_self]; omega
          · rw [h4 t' h, List.count_cons_of_ne (Ne.symm h)]
      · left
        simp only [not_forall] at hgood
        obtain ⟨r, hr, hng⟩ := hgood
        cases hq : s.todo t with
        | nil => rw [hq] at hr; simp at hr
        | cons r' rs =>
          rw [hq] at hr
          simp only [List.head?_cons, Option.some.injEq] at hr
          subst hr
          have hr0 : r' ∈ s0.todo t := by rw [hi.split t, hq]; simp
          have hnd : ∀ t', r' ∉ done t' := by
            intro t' hm
            have h1 : r' ∈ s0.todo t' := by rw [hi.split t']; exact List.mem_append_left _ hm
            have h2 := hd.disj _ _ _ hr0 h1
            subst h2
            have h3 := hd.nodup t
            rw [hi.split t, hq] at h3
            exact List.disjoint_of_nodup_append h3 hm (by simp)
          have hmem : s.mem r' = s0.mem r' := hi.memTodo r' hnd
          simp only [run, step, hq, hmem, hfe t r' (s.acc t) hr0 hng]
  have hi0 : Inv s0.todo s0.mem newMem s0.acc upd s0 (fun _ => []) :=
    ⟨by simp, by simp, by simp, by simp⟩
  rcases main sched s0 (fun _ => []) hi0 (by simp) with h | ⟨s', d, h1, h2, hg, h3⟩
  · exact h
  · exfalso
    have htodo : s'.todo t0 = [] := by
      have := h3 t0
      by_cases ht : t0 < T
      · have := hc t0 ht
        exact List.eq_nil_of_length_eq_zero (by omega)
      · rw [hT t0 (by omega)] at this
        exact List.eq_nil_of_length_eq_zero (by simpa using this)
    have := h2.split t0
    rw [htodo, List.append_nil] at this
    exact hbad (hg t0 r0 (this ▸ h0))

end Knor.Par
