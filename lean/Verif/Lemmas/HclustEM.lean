import Verif.Model.Hclust
import Verif.Spec.Hier
import Verif.Lemmas.ParDet
import Verif.Lemmas.Kmeans

/-! One iteration of hierarchical clustering. -/

namespace Knor.Hclust

open Knor Knor.Par Knor.Spec

variable {R D : Type _} {n : Nat}

theorem forEach_inv {σ α : Type _} {f : σ → α → Res σ} {P : List α → σ → Prop}
    (h : ∀ x l s, P (x :: l) s → ∃ s', f s x = .ok s' ∧ P l s') :
    ∀ l s, P l s → ∃ s', forEach f l s = .ok s' ∧ P [] s' := by
  intro l
  induction l with
  | nil => intro s hs; exact ⟨s, rfl, hs⟩
  | cons x l ih =>
    intro s hs
    obtain ⟨s1, e1, h1⟩ := h x l s hs
    obtain ⟨s2, e2, h2⟩ := ih s1 h1
    exact ⟨s2, by simp only [forEach, e1, e2], h2⟩

theorem mem_keys {s : St R n} {p : Nat} : p ∈ s.keys ↔ p < s.hsize ∧ ∃ nd, s.hc p = some nd := by
  unfold St.keys
  rw [List.mem_filter, List.mem_range, Option.isSome_iff_exists]

theorem nodup_keys (s : St R n) : s.keys.Nodup := List.nodup_range.filter _

theorem keys_congr {s s' : St R n} (h1 : s'.hsize = s.hsize)
    (h2 : ∀ p, (s'.hc p).isSome = (s.hc p).isSome) : s'.keys = s.keys := by
  unfold St.keys
  rw [h1]
  apply List.filter_congr
  intro p _
  exact h2 p

/-! ### Well-formed states -/

/-- `p` is being split and is not about to be removed. -/
def Open (dn : List Nat) (s : St R n) (p : Nat) (nd : Node R n) : Prop :=
  s.hc p = some nd ∧ p ∉ dn

/-- `i` is one of the two sides of a partition that is being split. -/
def Child (dn : List Nat) (s : St R n) (i : Nat) : Prop :=
  ∃ p nd j, Open dn s p nd ∧ nd.side j = i

/-- Structure of a state; `dn` are partitions about to be removed, `orph` clusters whose partition is
about to be removed and that have not been dealt with yet, `live` are the ids in use. -/
structure Wf (M : Nat) (dn orph : List Nat) (live : Finset Nat) (s : St R n) : Prop where
  lenA : s.active.length = M
  lenC : s.counts.length = M
  hsz : M ≤ s.hsize
  keyLt : ∀ p nd, s.hc p = some nd → p < s.hsize
  dead : ∀ p ∈ dn, (∃ nd, s.hc p = some nd) ∧ ¬ Child dn s p ∧ s.final p = none
  keyAct : ∀ p nd, Open dn s p nd → s.active[p]? = some true
  sideAct : ∀ p nd j, Open dn s p nd → s.active[nd.side j]? = some true
  sidesNe : ∀ p nd, Open dn s p nd → nd.zero ≠ nd.one
  sideNone : ∀ p nd j, Open dn s p nd → s.hc (nd.side j) = none
  uniq : ∀ p q nd nd' j j', Open dn s p nd → Open dn s q nd' → nd.side j = nd'.side j' → p = q
  finInact : ∀ f, (s.final f).isSome → s.active[f]? = some false
  finNone : ∀ f, (s.final f).isSome → s.hc f = none
  finChild : ∀ f, (s.final f).isSome → ¬ Child dn s f
  orphOk : ∀ i ∈ orph, s.active[i]? = some true ∧ s.hc i = none ∧ ¬ Child dn s i ∧ s.final i = none
  liveIff : ∀ i, i ∈ live ↔ (∃ nd, s.hc i = some nd) ∨ Child dn s i ∨ (s.final i).isSome ∨ i ∈ orph
  nodup : s.gen.recycler.Nodup
  disj : ∀ i, i ∈ s.gen.recycler → i ∉ live
  all : ∀ i, i ≤ s.gen.maxId ↔ i ∈ live ∨ i ∈ s.gen.recycler
  maxLt : s.gen.maxId < M
  actLive : ∀ i, s.active[i]? = some true → i ∈ live

theorem side_zero (nd : Node R n) : nd.side 0 = nd.zero := rfl
theorem side_one (nd : Node R n) : nd.side 1 = nd.one := rfl

theorem Wf.live_lt {M : Nat} {dn orph : List Nat} {live : Finset Nat} {s : St R n} (h : Wf M dn orph live s)
    {i : Nat} (hi : i ∈ live) : i < M := by
  have := (h.all i).2 (Or.inl hi)
  have := h.maxLt
  omega

theorem Wf.key_live {M : Nat} {dn orph : List Nat} {live : Finset Nat} {s : St R n} (h : Wf M dn orph live s)
    {p : Nat} {nd : Node R n} (hp : s.hc p = some nd) : p ∈ live := (h.liveIff p).2 (Or.inl ⟨nd, hp⟩)

theorem Wf.side_live {M : Nat} {dn orph : List Nat} {live : Finset Nat} {s : St R n} (h : Wf M dn orph live s)
    {p : Nat} {nd : Node R n} (hp : Open dn s p nd) (j : Fin 2) : nd.side j ∈ live :=
  (h.liveIff _).2 (Or.inr (Or.inl ⟨p, nd, j, hp, rfl⟩))

theorem Wf.side_inj {M : Nat} {dn orph : List Nat} {live : Finset Nat} {s : St R n} (h : Wf M dn orph live s)
    {p q : Nat} {nd nd' : Node R n} {j j' : Fin 2} (hp : Open dn s p nd) (hq : Open dn s q nd')
    (e : nd.side j = nd'.side j') : p = q ∧ nd = nd' ∧ j = j' := by
  have := h.uniq p q nd nd' j j' hp hq e
  subst this
  have h2 : nd = nd' := Option.some.inj (hp.1.symm.trans hq.1)
  subst h2
  refine ⟨rfl, rfl, ?_⟩
  have hne := h.sidesNe p nd hp
  have h01 : ∀ x : Fin 2, x = 0 ∨ x = 1 := by decide
  rcases h01 j with rfl | rfl <;> rcases h01 j' with rfl | rfl
  · rfl
  · exact absurd e hne
  · exact absurd e.symm hne
  · rfl

/-! ### Rows and counts -/

/-- What holds of rows, counts and converged partitions before an iteration. -/
structure Ready [Field R] [LT D] (c : Cfg R D n) (M : Nat) (s : St R n) : Prop where
  rows : ∀ r, r < c.nrow → ((s.final (s.assign r)).isSome ∧ s.hc (s.part r) = none) ∨
    ∃ nd, s.hc (s.part r) = some nd ∧ (s.assign r = s.part r ∨ ∃ j, s.assign r = nd.side j)
  counts : ∀ i, i < M → s.hc i = none → ¬ Child [] s i →
    s.counts[i]? = some (size c.nrow s.assign i : Int)
  convRows : ∀ p nd, s.hc p = some nd → nd.conv = true → ∀ r, r < c.nrow → s.part r = p →
    ∃ j, s.assign r = nd.side j
  convNum : ∀ p nd j, s.hc p = some nd → nd.conv = true →
    nd.cl.num j = (size c.nrow s.assign (nd.side j) : Int) ∧
      nd.cl.means j = meanOf c.nrow c.data s.assign (nd.side j)
  small : ∀ p nd j r, s.hc p = some nd → r < c.nrow → c.dist (c.data r) (nd.cl.means j) < c.big

/-- What holds after an iteration. -/
structure Settled [Field R] (N M : Nat) (data : Nat → Row R n) (s : St R n) : Prop where
  rows : ∀ r, r < N → ((s.final (s.assign r)).isSome ∧ s.hc (s.part r) = none) ∨
    ∃ nd j, s.hc (s.part r) = some nd ∧ s.assign r = nd.side j
  counts : ∀ i, i < M → s.counts[i]? = some (size N s.assign i : Int)
  nodes : ∀ p nd j, s.hc p = some nd →
    nd.cl.num j = (size N s.assign (nd.side j) : Int) ∧
      nd.cl.means j = meanOf N data s.assign (nd.side j)

theorem Wf.key_not_child {M : Nat} {dn orph : List Nat} {live : Finset Nat} {s : St R n}
    (h : Wf M dn orph live s) {p : Nat} {nd : Node R n} (hp : s.hc p = some nd) : ¬ Child dn s p := by
  rintro ⟨q, nd', j, hq, e⟩
  have := h.sideNone q nd' j hq
  rw [e, hp] at this
  cases this

/-- No row is in a partition that is being split, once settled. -/
theorem Settled.key_empty [Field R] {N M : Nat} {data : Nat → Row R n} {s : St R n}
    {live : Finset Nat} (hw : Wf M [] [] live s) (h : Settled N M data s) {p : Nat} {nd : Node R n}
    (hp : s.hc p = some nd) : size N s.assign p = 0 := by
  unfold size
  rw [Finset.card_eq_zero, Finset.filter_eq_empty_iff]
  intro r hr e
  rw [Finset.mem_range] at hr
  rcases h.rows r hr with ⟨hf, _⟩ | ⟨nd', j, hq, e'⟩
  · rw [e] at hf
    have := hw.finNone p hf
    rw [hp] at this; cases this
  · exact hw.key_not_child hp ⟨_, nd', j, ⟨hq, by simp⟩, by rw [← e', e]⟩

/-- The side of a node that an id is. -/
def sideOf (nd : Node R n) (i : Nat) : Option (Fin 2) :=
  if i = nd.zero then some 0 else if i = nd.one then some 1 else none

theorem sideOf_iff {nd : Node R n} (h : nd.zero ≠ nd.one) (i : Nat) (j : Fin 2) :
    sideOf nd i = some j ↔ i = nd.side j := by
  have h01 : j = 0 ∨ j = 1 := by revert j; decide
  unfold sideOf
  rcases h01 with rfl | rfl
  · rw [side_zero]
    by_cases h0 : i = nd.zero
    · simp [h0]
    · by_cases h1 : i = nd.one <;> simp [h0, h1]
  · rw [side_one]
    by_cases h0 : i = nd.zero
    · simp [h0, h]
    · by_cases h1 : i = nd.one <;> simp [h0, h1]
      exact fun e => h e.symm

theorem count_sideOf {nd : Node R n} (h : nd.zero ≠ nd.one) (N : Nat) (a : Nat → Nat) (j : Fin 2) :
    Spec.count N (fun r => sideOf nd (a r)) j = size N a (nd.side j) := by
  unfold Spec.count size
  congr 1
  apply Finset.filter_congr
  intro r _
  exact sideOf_iff h _ _

theorem mean_sideOf [Field R] {nd : Node R n} (h : nd.zero ≠ nd.one) (N : Nat) (data : Nat → Row R n)
    (a : Nat → Nat) (j : Fin 2) :
    (fun x => memberMean N data (fun r => sideOf nd (a r)) j x) = meanOf N data a (nd.side j) := by
  funext x
  unfold memberMean meanOf
  rw [count_sideOf h]
  congr 2
  unfold memberSum
  apply Finset.sum_congr _ fun _ _ => rfl
  apply Finset.filter_congr
  intro r _
  exact sideOf_iff h _ _

/-! ### The E-step -/

/-- The result of the E-step for a row. -/
def newId [LT D] [DecidableLT D] (c : Cfg R D n) (s : St R n) (r : Nat) (old : Nat) : Res Nat :=
  match choose c s r old with
  | .error e => .error e
  | .ok none => .ok old
  | .ok (some (nd, i)) => .ok (nd.side i)

/-- The effect of the E-step for a row on the worker's accumulators. -/
def bump [Add R] [LT D] [DecidableLT D] (c : Cfg R D n) (s : St R n) (r : Nat) (old _new : Nat)
    (a : HAcc R n) : HAcc R n :=
  match choose c s r old with
  | .ok (some (nd, i)) =>
    { nchanged := Function.update a.nchanged (s.part r)
        (if nd.side i ≠ old then a.nchanged (s.part r) + 1 else a.nchanged (s.part r))
      loc := Function.update a.loc (s.part r) ((a.loc (s.part r)).addMember (c.data r) i) }
  | _ => a

theorem hemRow_det [Add R] [LT D] [DecidableLT D] (c : Cfg R D n) (s : St R n) (r old : Nat)
    (a : HAcc R n) : hemRow c s r old a = match newId c s r old with
      | .error e => .error e
      | .ok m' => .ok (m', bump c s r old m' a) := by
  unfold hemRow newId bump
  cases choose c s r old with
  | error e => rfl
  | ok x =>
    cases x with
    | none => rfl
    | some y => rfl

section
variable [Field R] [LinearOrder D]

/-- A row is not skipped exactly when its cluster is not final and its partition has not converged;
then it goes to one of the sides. -/
theorem choose_ok {c : Cfg R D n} {s : St R n} {M : Nat} {live : Finset Nat} (hw : Wf M [] [] live s)
    (hr : Ready c M s)
    {r : Nat} (hrN : r < c.nrow) :
    ((s.final (s.assign r)).isSome ∧ choose c s r (s.assign r) = .ok none) ∨
    ∃ nd, s.final (s.assign r) = none ∧ s.hc (s.part r) = some nd ∧
      ((nd.conv = true ∧ choose c s r (s.assign r) = .ok none) ∨
        (nd.conv = false ∧ ∃ i, choose c s r (s.assign r) = .ok (some (nd, i)))) := by
  cases hfin : s.final (s.assign r) with
  | some v =>
    left
    refine ⟨rfl, ?_⟩
    have := hw.finInact (s.assign r) (by rw [hfin]; rfl)
    unfold choose VMap.flagsGet
    rw [this]
  | none =>
    right
    rcases hr.rows r hrN with h | ⟨nd, hnd, hloc⟩
    · rw [hfin] at h; cases h.1
    refine ⟨nd, rfl, hnd, ?_⟩
    have hact : s.active[s.assign r]? = some true := by
      rcases hloc with e | ⟨j, e⟩
      · rw [e]; exact hw.keyAct _ nd ⟨hnd, by simp⟩
      · rw [e]; exact hw.sideAct _ nd j ⟨hnd, by simp⟩
    unfold choose VMap.flagsGet
    rw [hact]
    simp only [hnd]
    cases hcv : nd.conv with
    | true => left; simp
    | false =>
      right
      refine ⟨rfl, ?_⟩
      obtain ⟨i, hi⟩ := Kmeans.emScan_exists (big := c.big)
        (d := fun i : Fin 2 => c.dist (c.data r) (nd.cl.means i)) ⟨0, hr.small _ nd 0 r hnd hrN⟩
      exact ⟨i, by simp [hi]⟩

end

/-- Partitions and their sides, without means and convergence. -/
def shape (s : St R n) (p : Nat) : Option (Nat × Nat) := (s.hc p).map fun nd => (nd.zero, nd.one)

theorem shape_open {s s' : St R n} (h : ∀ p, shape s' p = shape s p) {p : Nat} {nd' : Node R n}
    (hp : s'.hc p = some nd') : ∃ nd, s.hc p = some nd ∧ ∀ j, nd'.side j = nd.side j := by
  have := h p
  unfold shape at this
  rw [hp] at this
  cases hs : s.hc p with
  | none => rw [hs] at this; cases this
  | some nd =>
    rw [hs] at this
    simp only [Option.map_some, Option.some.injEq, Prod.mk.injEq] at this
    refine ⟨nd, rfl, fun j => ?_⟩
    unfold Node.side
    rw [this.1, this.2]

theorem shape_none {s s' : St R n} (h : ∀ p, shape s' p = shape s p) {p : Nat}
    (hp : s.hc p = none) : s'.hc p = none := by
  have := h p
  unfold shape at this
  rw [hp] at this
  cases hs : s'.hc p with
  | none => rfl
  | some nd => rw [hs] at this; cases this

theorem shape_child {s s' : St R n} (h : ∀ p, shape s' p = shape s p) {dn : List Nat} {i : Nat}
    (hp : Child dn s' i) : Child dn s i := by
  obtain ⟨p, nd', j, ⟨hp, hdn⟩, e⟩ := hp
  obtain ⟨nd, h1, h2⟩ := shape_open h hp
  exact ⟨p, nd, j, ⟨h1, hdn⟩, by rw [← h2, e]⟩

theorem Wf.of_shape {M : Nat} {dn orph : List Nat} {live : Finset Nat} {s s' : St R n}
    (h : Wf M dn orph live s)
    (hs : ∀ p, shape s' p = shape s p) (hA : s'.active = s.active)
    (hC : s'.counts.length = s.counts.length) (hh : s'.hsize = s.hsize) (hg : s'.gen = s.gen)
    (hf : s'.final = s.final) : Wf M dn orph live s' := by
  have hs' : ∀ p, shape s p = shape s' p := fun p => (hs p).symm
  refine ⟨by rw [hA, h.lenA], by rw [hC, h.lenC], by rw [hh]; exact h.hsz, ?_, ?_, ?_, ?_, ?_, ?_, ?_,
    ?_, ?_, ?_, ?_, ?_, by rw [hg]; exact h.nodup, by rw [hg]; exact h.disj, by rw [hg]; exact h.all,
    by rw [hg]; exact h.maxLt, by rw [hA]; exact h.actLive⟩
  · intro p nd hp
    obtain ⟨nd', h1, _⟩ := shape_open hs hp
    rw [hh]; exact h.keyLt p nd' h1
  · intro p hp
    obtain ⟨⟨nd, h1⟩, h2, h3⟩ := h.dead p hp
    obtain ⟨nd', h4, _⟩ := shape_open hs' h1
    exact ⟨⟨nd', h4⟩, fun hc => h2 (shape_child hs hc), by rw [hf]; exact h3⟩
  · rintro p nd ⟨hp, hd⟩
    obtain ⟨nd', h1, _⟩ := shape_open hs hp
    rw [hA]; exact h.keyAct p nd' ⟨h1, hd⟩
  · rintro p nd j ⟨hp, hd⟩
    obtain ⟨nd', h1, h2⟩ := shape_open hs hp
    rw [hA, h2]; exact h.sideAct p nd' j ⟨h1, hd⟩
  · rintro p nd ⟨hp, hd⟩
    obtain ⟨nd', h1, h2⟩ := shape_open hs hp
    rw [← side_zero, ← side_one, h2, h2]; exact h.sidesNe p nd' ⟨h1, hd⟩
  · rintro p nd j ⟨hp, hd⟩
    obtain ⟨nd', h1, h2⟩ := shape_open hs hp
    rw [h2]; exact shape_none hs (h.sideNone p nd' j ⟨h1, hd⟩)
  · rintro p q nd nd' j j' ⟨hp, hd⟩ ⟨hq, hd'⟩ e
    obtain ⟨md, h1, h2⟩ := shape_open hs hp
    obtain ⟨md', h3, h4⟩ := shape_open hs hq
    exact h.uniq p q md md' j j' ⟨h1, hd⟩ ⟨h3, hd'⟩ (by rw [← h2, ← h4, e])
  · intro f hff; rw [hf] at hff; rw [hA]; exact h.finInact f hff
  · intro f hff; rw [hf] at hff; exact shape_none hs (h.finNone f hff)
  · intro f hff hc; rw [hf] at hff; exact h.finChild f hff (shape_child hs hc)
  · intro i hi
    obtain ⟨o1, o2, o3, o4⟩ := h.orphOk i hi
    exact ⟨by rw [hA]; exact o1, shape_none hs o2, fun hc => o3 (shape_child hs hc),
      by rw [hf]; exact o4⟩
  · intro i
    rw [h.liveIff i, hf]
    refine or_congr ?_ (or_congr_left ⟨shape_child hs', shape_child hs⟩)
    constructor
    · rintro ⟨nd, h1⟩; obtain ⟨nd', h2, _⟩ := shape_open hs' h1; exact ⟨nd', h2⟩
    · rintro ⟨nd, h1⟩; obtain ⟨nd', h2, _⟩ := shape_open hs h1; exact ⟨nd', h2⟩

/-! ### The sums of the workers -/

section
variable [Field R] [LinearOrder D]

/-- The side a row of partition `p` is added to. -/
def sel (c : Cfg R D n) (s : St R n) (p r : Nat) : Option (Fin 2) :=
  if s.part r = p then
    match choose c s r (s.assign r) with
    | .ok (some (_, i)) => some i
    | _ => none
  else none

/-- The effect of a row on the accumulators of partition `p`. -/
def bumpAt (c : Cfg R D n) (s : St R n) (p r : Nat) (a : Kmeans.Acc R 2 n) : Kmeans.Acc R 2 n :=
  if s.part r = p then
    match choose c s r (s.assign r) with
    | .ok (some (nd, i)) => ⟨if nd.side i ≠ s.assign r then a.changed + 1 else a.changed,
        a.loc.addMember (c.data r) i⟩
    | _ => a
  else a

theorem bump_at (c : Cfg R D n) (s : St R n) (p r : Nat) (m' : Nat) (a : HAcc R n) :
    (⟨(bump c s r (s.assign r) m' a).nchanged p, (bump c s r (s.assign r) m' a).loc p⟩ :
      Kmeans.Acc R 2 n) = bumpAt c s p r ⟨a.nchanged p, a.loc p⟩ := by
  unfold bump bumpAt
  cases choose c s r (s.assign r) with
  | error e => simp
  | ok x =>
    cases x with
    | none => simp
    | some y =>
      obtain ⟨nd, i⟩ := y
      simp only
      by_cases h : s.part r = p
      · subst h; simp
      · rw [if_neg h, Function.update_of_ne fun e => h e.symm, Function.update_of_ne fun e => h e.symm]

/-- 1 if the row of partition `p` changes its cluster. -/
def chgAt (c : Cfg R D n) (s : St R n) (p r : Nat) : Nat :=
  if s.part r = p then
    match choose c s r (s.assign r) with
    | .ok (some (nd, i)) => if nd.side i ≠ s.assign r then 1 else 0
    | _ => 0
  else 0

theorem bumpAt_delta (c : Cfg R D n) (s : St R n) (p r : Nat) :
    Kmeans.RowDelta (bumpAt c s p r) (fun j x => if sel c s p r = some j then c.data r x else 0)
      (fun j => if sel c s p r = some j then 1 else 0) (chgAt c s p r) := by
  unfold bumpAt sel chgAt
  by_cases h : s.part r = p
  · simp only [if_pos h]
    cases choose c s r (s.assign r) with
    | error e => exact ⟨by simp, by simp, by simp⟩
    | ok x =>
      cases x with
      | none => exact ⟨by simp, by simp, by simp⟩
      | some y =>
        obtain ⟨nd, i⟩ := y
        refine ⟨?_, ?_, ?_⟩
        · intro a; simp only; split <;> simp
        · intro a j x
          simp only [Clusters.addMember, Option.some.injEq]
          by_cases hj : i = j
          · subst hj; simp
          · rw [if_neg hj, Function.update_of_ne fun e => hj e.symm, add_zero]
        · intro a j
          simp only [Clusters.addMember, Option.some.injEq]
          by_cases hj : i = j
          · subst hj; simp
          · rw [if_neg hj, Function.update_of_ne fun e => hj e.symm, add_zero]
  · simp only [if_neg h]
    exact ⟨by simp, by simp, by simp⟩

theorem merged_at {c : Cfg R D n} {s : St R n} {N T : Nat} {todo : Nat → List Nat}
    (hsp : Split N T todo) {a' : Nat → Nat} {acc : Nat → HAcc R n}
    (hacc : ∀ t, acc t = (todo t).foldl (fun a r => bump c s r (s.assign r) (a' r) a) HAcc.init)
    {p : Nat} {nd : Node R n} (hne : nd.zero ≠ nd.one)
    (hsel : ∀ r, r < N → ∀ j, (sel c s p r = some j ↔ a' r = nd.side j)) :
    let m := (List.range T).foldl (fun x t => Clusters.peq x ((acc t).loc p)) Clusters.empty
    mergeChanged T acc p = ∑ r ∈ Finset.range N, chgAt c s p r ∧
    (∀ j, m.complete j = false) ∧
    (∀ j, m.num j = (Spec.count N (fun r => sideOf nd (a' r)) j : Int)) ∧
    ∀ j x, m.means j x = memberSum N c.data (fun r => sideOf nd (a' r)) j x := by
  have hproj : ∀ t, (⟨(acc t).nchanged p, (acc t).loc p⟩ : Kmeans.Acc R 2 n)
      = (todo t).foldl (fun a r => bumpAt c s p r a) Kmeans.Acc.init := by
    intro t
    rw [hacc t]
    have : ∀ (l : List Nat) (a : HAcc R n),
        (⟨(l.foldl (fun a r => bump c s r (s.assign r) (a' r) a) a).nchanged p,
          (l.foldl (fun a r => bump c s r (s.assign r) (a' r) a) a).loc p⟩ : Kmeans.Acc R 2 n)
        = l.foldl (fun a r => bumpAt c s p r a) ⟨a.nchanged p, a.loc p⟩ := by
      intro l
      induction l with
      | nil => intro a; rfl
      | cons r l ih => intro a; rw [List.foldl_cons, List.foldl_cons, ih, bump_at]
    rw [this]
    rfl
  have h := Kmeans.merge_delta hsp (u := fun r => bumpAt c s p r) (fun r _ => bumpAt_delta c s p r)
    (fun t => ⟨(acc t).nchanged p, (acc t).loc p⟩) hproj Clusters.empty 0
  simp only at h ⊢
  obtain ⟨h1, h2, h3, h4⟩ := h
  refine ⟨?_, ?_, ?_, ?_⟩
  · unfold mergeChanged; rw [h1, zero_add]
  · intro j; rw [h2]; rfl
  · intro j
    rw [h4 j]
    unfold Spec.count
    rw [Finset.card_filter, Nat.cast_sum]
    simp only [Clusters.empty, zero_add]
    apply Finset.sum_congr rfl
    intro r hr
    have := hsel r (Finset.mem_range.1 hr) j
    rw [← sideOf_iff hne] at this
    by_cases hs : sel c s p r = some j
    · rw [if_pos hs, if_pos (this.1 hs)]; rfl
    · rw [if_neg hs, if_neg fun e => hs (this.2 e)]; rfl
  · intro j x
    rw [h3 j x]
    unfold memberSum
    rw [Finset.sum_filter]
    simp only [Clusters.empty, zero_add]
    apply Finset.sum_congr rfl
    intro r hr
    have := hsel r (Finset.mem_range.1 hr) j
    rw [← sideOf_iff hne] at this
    by_cases hs : sel c s p r = some j
    · rw [if_pos hs, if_pos (this.1 hs)]
    · rw [if_neg hs, if_neg fun e => hs (this.2 e)]

end

end Knor.Hclust
