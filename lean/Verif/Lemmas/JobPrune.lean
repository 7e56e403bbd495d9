import Verif.Model.JobOrder
import Verif.Lemmas.DistrPrunedDriver

/-!
# The initialisation of a pruned distributed job with reductions in any order
-/

namespace Knor.Init

open Knor Knor.Partition

variable {R S D : Type _} {k n : Nat}

theorem kppPassDistBy_blank [Zero D] [Add D] [LT D] [DecidableLT D] {tot : (Nat → D) → D} {dist : Row R n → Row R n → D}
    {data : Nat → Row R n} {g np : Nat} {T : Nat → Nat} {todo : Nat → Nat → List Nat} {sched : Nat → List Nat}
    {ci : Fin k} {s s' : Nat → Kpp R D k n} {d : D} (h : kppPassDistBy tot dist data g np T todo sched ci s = .ok (s', d))
    (hb : ∀ p, p < np → Blank (s p).cltrs) : ∀ p, p < np → Blank (s' p).cltrs := by
  unfold kppPassDistBy at h
  split at h
  · cases h
  · rename_i loc e
    obtain ⟨rfl, -⟩ := Prod.mk.inj (Except.ok.inj h)
    intro p hp
    dsimp only
    rw [kppPass_blank (Distr.eachRank_inv e p hp)]
    exact hb p hp

theorem reduceMeansBy_blank {sum : Fin k → Fin n → (Nat → R) → R} {np : Nat} {s : Nat → Kpp R D k n}
    (hb : ∀ p, p < np → Blank (s p).cltrs) : ∀ p, p < np → Blank (reduceMeansBy sum s p).cltrs := hb

theorem kppLoopDistBy_blank [Zero R] [Add R] [Zero D] [Add D] [Sub D] [Mul D] [Div D] [NatCast D]
    [LT D] [DecidableLT D] [LE D] [DecidableLE D] {sum : Nat → Fin k → Fin n → (Nat → R) → R} {tot : Nat → (Nat → D) → D}
    {zeroIt : Bool} {dist : Row R n → Row R n → D}
    {data : Nat → Row R n} {g np nt : Nat} {T : Nat → Nat} {todo : Nat → Nat → List Nat}
    {sched : Nat → Nat → List Nat} {u : Nat → D} (l : List (Fin k)) :
    ∀ (ci : Fin k) (s s' : Nat → Kpp R D k n),
      kppLoopDistBy sum tot zeroIt dist data g np nt T todo sched u l ci s = .ok s' →
      (∀ p, p < np → Blank (s p).cltrs) → ∀ p, p < np → Blank (s' p).cltrs := by
  induction l with
  | nil =>
    intro ci s s' h hb
    unfold kppLoopDistBy at h
    split at h
    · cases h
    · rename_i e
      obtain rfl := Except.ok.inj h
      exact kppPassDistBy_blank e hb
  | cons c l ih =>
    intro ci s s' h hb
    unfold kppLoopDistBy at h
    split at h
    · cases h
    · rename_i s1 total e
      have h1 := kppPassDistBy_blank e hb
      dsimp only at h
      split at h
      · split at h
        · exact ih _ _ _ h (reduceMeansBy_blank h1)
        · cases h
      · split at h
        · cases h
        · rename_i s2 e2
          split at h
          · refine ih _ _ _ h (reduceMeansBy_blank fun p hp => ?_)
            have h2 := Distr.eachRank_inv e2 p hp
            unfold chooseDist at h2
            split at h2
            · split at h2
              · cases h2
              · split at h2
                · cases h2
                · rw [← Except.ok.inj h2]
                  exact h1 p hp
            · rw [← Except.ok.inj h2]
              exact ⟨fun _ => rfl, fun _ => rfl⟩
          · cases h

theorem kppDistBy_blank [Zero R] [Add R] [Zero D] [Add D] [Sub D] [Mul D] [Div D] [NatCast D]
    [LT D] [DecidableLT D] [LE D] [DecidableLE D] {sum : Nat → Fin k → Fin n → (Nat → R) → R} {tot : Nat → (Nat → D) → D}
    {zeroIt : Bool} {dist : Row R n → Row R n → D}
    {data : Nat → Row R n} {g np nt : Nat} {T : Nat → Nat} {todo : Nat → Nat → List Nat}
    {sched : Nat → Nat → List Nat} {first : Nat} {u : Nat → D} {s s' : Nat → Kpp R D k n}
    (h : kppDistBy sum tot zeroIt dist data g np nt T todo sched first u s = .ok s')
    (hb : ∀ p, p < np → Blank (s p).cltrs) : ∀ p, p < np → Blank (s' p).cltrs := by
  unfold kppDistBy at h
  split at h
  · cases h
  · split at h
    · cases h
    · rename_i s1 e
      refine kppLoopDistBy_blank _ _ _ _ h (reduceMeansBy_blank fun p hp => ?_)
      have h2 := Distr.eachRank_inv e p hp
      unfold firstDist at h2
      split at h2
      · split at h2
        · cases h2
        · split at h2
          · cases h2
          · rw [← Except.ok.inj h2]
            exact hb p hp
      · rw [← Except.ok.inj h2]
        exact hb p hp

theorem forgyDistBy_blank {sum : Fin k → Fin n → (Nat → R) → R} {draw : S → Nat × S} {seed : S}
    {data : Nat → Row R n} {g np nt : Nat}
    {cs cs' : Nat → Clusters R k n} (h : forgyDistBy sum draw seed data g np nt cs = .ok cs')
    (hb : ∀ p, p < np → Blank (cs p)) : ∀ p, p < np → Blank (cs' p) := by
  unfold forgyDistBy at h
  split at h
  · cases h
  · rename_i loc e
    intro p hp
    rw [← Except.ok.inj h]
    have : Blank (loc p) := forgyLoopDist_blank _ _ _ _ (Distr.eachRank_inv e p hp) (hb p hp)
    exact this

theorem randomDistBy_blank [Add R] [Div R] [IntCast R] {sum : Fin k → Fin n → (Nat → R) → R} {draw : S → Fin k × S}
    {seed : S} {data : Nat → Row R n} {g np nt : Nat} {st st' : Nat → Clusters R k n × (Nat → Option (Fin k))}
    (h : randomDistBy sum draw seed data g np nt st = .ok st') (p : Nat) (c : Fin k) :
    (st' p).1.complete c = true ∧ (st' p).1.num c = (st' 0).1.num c := by
  unfold randomDistBy at h
  split at h
  · cases h
  · rw [← Except.ok.inj h]
    refine ⟨Clusters.finalizeAll_complete _ c, ?_⟩
    dsimp only
    rw [Clusters.finalizeAll_num, Clusters.finalizeAll_num]
    rfl

end Knor.Init

namespace Knor.Distr

open Knor Knor.Partition

variable {R D : Type _} {k n : Nat}

/-- The state that ranks share which differ in their rows only. -/
def joinRanks (g np : Nat) (procs : Nat → DProc R D k n) : Prune.PState R D k n :=
  { (procs 0).core with
    slots := fun r => (procs (Driver.ownerOf g np r)).core.slots (r - off g np (Driver.ownerOf g np r)) }

theorem rel_join {g np : Nat} (hnp : 0 < np) (hg : np ≤ g) {procs : Nat → DProc R D k n}
    (h : ∀ p, p < np → (procs p).core = { (procs 0).core with slots := (procs p).core.slots }) :
    Rel g np procs (joinRanks g np procs) := by
  refine ⟨?_, ?_, ?_, ?_, ?_, ?_, ?_, fun p r hp hr => ?_⟩
  all_goals first
    | (intro p hp; rw [h p hp]; rfl)
    | skip
  unfold joinRanks
  dsimp only
  rw [Driver.ownerOf_off hnp hg hp hr, Nat.add_sub_cancel_left]

/-- What holds of every row of every rank holds of every row. -/
theorem join_slots {g np : Nat} (hnp : 0 < np) (hg : np ≤ g) {procs : Nat → DProc R D k n} {P : Nat → Prune.Slot D k → Prop}
    (h : ∀ p l, p < np → l < procNrow g np p → P (off g np p + l) ((procs p).core.slots l)) (r : Nat) (hr : r < g) :
    P r ((joinRanks g np procs).slots r) := by
  obtain ⟨p, l, hp, hl, rfl⟩ := exists_off (g := g) hnp hr
  unfold joinRanks
  dsimp only
  rw [Driver.ownerOf_off hnp hg hp hl, Nat.add_sub_cancel_left]
  exact h p l hp hl

end Knor.Distr
