import Verif.Lemmas.Par
import Verif.Spec.Repro

/-!
# A parallel phase does not depend on its interleaving, whatever the row body computes

Unlike `Lemmas/Par.lean` nothing is assumed about the body `f`: it may fail, and its effect on the
accumulator may depend on the accumulator in any way (so additions may round).
-/

namespace Knor.Par

open Knor

variable {μ α β : Type _}

/-- What worker `t` computes if it runs alone. -/
def alone (f : Nat → μ → α → Res (μ × α)) : List Nat → (Nat → μ) × α → Res ((Nat → μ) × α)
  | [], s => .ok s
  | r :: rs, s =>
    match f r (s.1 r) s.2 with
    | .error e => .error e
    | .ok (m, a) => alone f rs (Function.update s.1 r m, a)

theorem alone_append (f : Nat → μ → α → Res (μ × α)) (l l' : List Nat) (s : (Nat → μ) × α) :
    alone f (l ++ l') s = match alone f l s with
      | .error e => .error e
      | .ok s' => alone f l' s' := by
  induction l generalizing s with
  | nil => rfl
  | cons r rs ih =>
    simp only [List.cons_append, alone]
    cases h : f r (s.1 r) s.2 with
    | error e => rfl
    | ok p => obtain ⟨m, a⟩ := p; exact ih _

/-- Every worker has done what it would have done alone. -/
structure AInv (f : Nat → μ → α → Res (μ × α)) (s0 s : State μ α) (done : Nat → List Nat) : Prop where
  split : ∀ t, s0.todo t = done t ++ s.todo t
  alone : ∀ t, ∃ m, alone f (done t) (s0.mem, s0.acc t) = .ok (m, s.acc t) ∧
    ∀ r, r ∈ s0.todo t → s.mem r = m r
  rest : ∀ r, (∀ t, r ∉ s0.todo t) → s.mem r = s0.mem r

theorem AInv.step {f : Nat → μ → α → Res (μ × α)} {s0 s : State μ α} {done : Nat → List Nat}
    (hd : ∀ t t' r, r ∈ s0.todo t → r ∈ s0.todo t' → t = t') (hi : AInv f s0 s done) (t : Nat) :
    match step f s t with
    | .error _ => ∃ e', Par.alone f (s0.todo t) (s0.mem, s0.acc t) = .error e'
    | .ok s' => ∃ done', AInv f s0 s' done' ∧ ∀ u, (s'.todo u).length =
        (s.todo u).length - (if u = t then 1 else 0) := by
  unfold Par.step
  cases hq : s.todo t with
  | nil =>
    refine ⟨done, hi, fun u => ?_⟩
    split
    · subst u; simp [hq]
    · rfl
  | cons r rs =>
    obtain ⟨m, hm, hmem⟩ := hi.alone t
    have hr : r ∈ s0.todo t := by rw [hi.split t, hq]; simp
    have hmr := hmem r hr
    dsimp only
    cases hf : f r (s.mem r) (s.acc t) with
    | error e =>
      refine ⟨e, ?_⟩
      rw [hi.split t, hq, alone_append, hm]
      simp only [Par.alone]
      rw [← hmr, hf]
    | ok p =>
      obtain ⟨v, a⟩ := p
      refine ⟨Function.update done t (done t ++ [r]), ⟨?_, ?_, ?_⟩, ?_⟩
      · intro u
        by_cases hu : u = t
        · subst hu; simp [hi.split u, hq]
        · simp [hu, hi.split u]
      · intro u
        by_cases hu : u = t
        · subst hu
          refine ⟨Function.update m r v, ?_, fun r' hr' => ?_⟩
          · simp only [Function.update_self]
            rw [alone_append, hm]
            simp only [Par.alone]
            rw [← hmr, hf]
          · by_cases h : r' = r
            · subst h; simp
            · simp [h, hmem r' hr']
        · obtain ⟨mu, hmu, hmemu⟩ := hi.alone u
          refine ⟨mu, ?_, fun r' hr' => ?_⟩
          · simp only [Function.update_of_ne hu]; exact hmu
          · have : r' ≠ r := fun h => hu (hd u t r' hr' (h ▸ hr))
            simp [this, hmemu r' hr']
      · intro r' hr'
        have : r' ≠ r := fun h => hr' t (h ▸ hr)
        simp [this, hi.rest r' hr']
      · intro u
        by_cases hu : u = t
        · subst hu; simp [hq]
        · simp [hu]

theorem AInv.run {f : Nat → μ → α → Res (μ × α)} {s0 : State μ α}
    (hd : ∀ t t' r, r ∈ s0.todo t → r ∈ s0.todo t' → t = t') (sched : List Nat) :
    ∀ {s : State μ α} {done : Nat → List Nat}, AInv f s0 s done →
    match Par.run f s sched with
    | .error _ => ∃ t e', Par.alone f (s0.todo t) (s0.mem, s0.acc t) = .error e'
    | .ok s' => ∃ done', AInv f s0 s' done' ∧ ∀ u, (s'.todo u).length = (s.todo u).length - sched.count u := by
  induction sched with
  | nil => intro s done hi; exact ⟨done, hi, by simp⟩
  | cons t ts ih =>
    intro s done hi
    have h1 := hi.step hd t
    unfold Par.run
    cases hs : Par.step f s t with
    | error e => rw [hs] at h1; exact ⟨t, h1⟩
    | ok s' =>
      rw [hs] at h1
      obtain ⟨done', hi', hlen⟩ := h1
      have h2 := ih hi'
      dsimp only
      cases hr : Par.run f s' ts with
      | error e => rw [hr] at h2; exact h2
      | ok s'' =>
        rw [hr] at h2
        obtain ⟨d, hid, hl⟩ := h2
        refine ⟨d, hid, fun u => ?_⟩
        rw [hl u, hlen u, List.count_cons]
        by_cases hu : u = t
        · subst hu; simp; omega
        · have : ¬ t = u := fun h => hu h.symm
          simp [hu, this]

theorem init_inv (f : Nat → μ → α → Res (μ × α)) (s0 : State μ α) : AInv f s0 s0 fun _ => [] :=
  ⟨fun _ => by simp, fun t => ⟨s0.mem, rfl, fun _ _ => rfl⟩, fun _ _ => rfl⟩

/-- A complete schedule that succeeds: every worker has done what it would do alone. -/
theorem run_ok_alone {f : Nat → μ → α → Res (μ × α)} {s0 s : State μ α} {T : Nat} {sched : List Nat}
    (hd : ∀ t t' r, r ∈ s0.todo t → r ∈ s0.todo t' → t = t') (hT : ∀ t, T ≤ t → s0.todo t = [])
    (hc : Complete T s0.todo sched) (h : run f s0 sched = .ok s) :
    (∀ t, s.todo t = []) ∧ (∀ t, ∃ m, alone f (s0.todo t) (s0.mem, s0.acc t) = .ok (m, s.acc t) ∧
      ∀ r, r ∈ s0.todo t → s.mem r = m r) ∧ ∀ r, (∀ t, r ∉ s0.todo t) → s.mem r = s0.mem r := by
  have h1 := (init_inv f s0).run hd sched
  rw [h] at h1
  obtain ⟨done, hi, hl⟩ := h1
  have hnil : ∀ t, s.todo t = [] := by
    intro t
    apply List.eq_nil_of_length_eq_zero
    rw [hl t]
    by_cases ht : t < T
    · have := hc t ht; omega
    · rw [hT t (by omega)]; simp
  refine ⟨hnil, fun t => ?_, hi.rest⟩
  have := hi.alone t
  have hs := hi.split t
  rw [hnil t, List.append_nil] at hs
  rw [hs]
  rw [hs] at this
  exact this

/-- The outcome of a phase does not depend on the interleaving. -/
theorem run_same {f : Nat → μ → α → Res (μ × α)} {s0 : State μ α} {T : Nat} {sched sched' : List Nat}
    (hd : ∀ t t' r, r ∈ s0.todo t → r ∈ s0.todo t' → t = t') (hT : ∀ t, T ≤ t → s0.todo t = [])
    (hc : Complete T s0.todo sched) (hc' : Complete T s0.todo sched') :
    SameOutcome (run f s0 sched) (run f s0 sched') := by
  cases h : run f s0 sched with
  | error e =>
    cases h' : run f s0 sched' with
    | error e' => exact .fail e e'
    | ok s' =>
      have h1 := (init_inv f s0).run hd sched
      rw [h] at h1
      obtain ⟨t, e', he⟩ := h1
      obtain ⟨-, ha, -⟩ := run_ok_alone hd hT hc' h'
      obtain ⟨m, hm, -⟩ := ha t
      rw [he] at hm; cases hm
  | ok s =>
    obtain ⟨hn, ha, hr⟩ := run_ok_alone hd hT hc h
    cases h' : run f s0 sched' with
    | error e' =>
      have h1 := (init_inv f s0).run hd sched'
      rw [h'] at h1
      obtain ⟨t, e', he⟩ := h1
      obtain ⟨m, hm, -⟩ := ha t
      rw [he] at hm; cases hm
    | ok s' =>
      obtain ⟨hn', ha', hr'⟩ := run_ok_alone hd hT hc' h'
      have : s = s' := by
        obtain ⟨mem, acc, todo⟩ := s
        obtain ⟨mem', acc', todo'⟩ := s'
        congr 1
        · funext r
          by_cases hex : ∃ t, r ∈ s0.todo t
          · obtain ⟨t, ht⟩ := hex
            obtain ⟨m, hm, e1⟩ := ha t
            obtain ⟨m', hm', e2⟩ := ha' t
            rw [hm] at hm'
            simp only [Except.ok.injEq, Prod.mk.injEq] at hm'
            exact (e1 r ht).trans ((congrFun hm'.1 r).trans (e2 r ht).symm)
          · have hex' : ∀ t, r ∉ s0.todo t := fun t ht => hex ⟨t, ht⟩
            exact (hr r hex').trans (hr' r hex').symm
        · funext t
          obtain ⟨m, hm, -⟩ := ha t
          obtain ⟨m', hm', -⟩ := ha' t
          rw [hm] at hm'
          simp only [Except.ok.injEq, Prod.mk.injEq] at hm'
          exact hm'.2
        · funext t; exact (hn t).trans (hn' t).symm
      subst this
      exact .ok s

end Knor.Par
