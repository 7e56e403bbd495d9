import Verif.Lemmas.DistrNear
import Verif.Lemmas.DistrPrune

/-!
# Pruned k-means in rounded arithmetic
-/

namespace Knor.DistMatrix

open Knor

variable {R F : Type _} {k n : Nat} [Div R] [NatCast R] [LT R] [DecidableLT R] [LinearOrder F]
  {fin : R → Prop} {val : R → F}

/-- The entry of the table for two clusters. -/
def half (eucl : Row R n → Row R n → R) (cents : Fin k → Row R n) (a b : Fin k) : R :=
  eucl (cents (min a b)) (cents (max a b)) / 2

omit [LT R] [DecidableLT R] in
theorem half_comm (eucl : Row R n → Row R n → R) (cents : Fin k → Row R n) (a b : Fin k) :
    half eucl cents a b = half eucl cents b a := by
  unfold half; rw [min_comm, max_comm]

theorem computeLoop_near (hlt : ∀ x y, fin x → fin y → (x < y ↔ val x < val y)) {big : R}
    {eucl : Row R n → Row R n → R} {cents : Fin k → Row R n}
    (hf : ∀ i j, fin (eucl (cents i) (cents j) / 2)) (l : List (Fin k × Fin k)) (hl : ∀ p ∈ l, p.1 < p.2) :
    ∀ (m : DistMatrix R) (sv : Fin k → R), WF k m → (∀ c, fin (sv c)) →
    ∃ m' sv', computeLoop eucl cents l (m, sv) = .ok (m', sv') ∧ WF k m' ∧ (∀ c, fin (sv' c)) ∧
      (∀ a b : Fin k, a ≠ b → ((min a b, max a b) ∈ l → m'.get big a b = .ok (half eucl cents a b)) ∧
        ((min a b, max a b) ∉ l → m'.get big a b = m.get big a b)) ∧
      (∀ c, val (sv' c) ≤ val (sv c)) ∧
      (∀ a b : Fin k, (min a b, max a b) ∈ l → val (sv' a) ≤ val (half eucl cents a b)) := by
  induction l with
  | nil =>
    intro m sv h hs
    exact ⟨m, sv, rfl, h, hs, fun _ _ _ => ⟨by simp, fun _ => rfl⟩, fun _ => le_rfl, by simp⟩
  | cons p l ih =>
    intro m sv h hs
    obtain ⟨i, j⟩ := p
    have hij : i < j := hl (i, j) (by simp)
    have hne : i.val ≠ j.val := by
      have : i.val < j.val := hij
      omega
    have hh : eucl (cents i) (cents j) / 2 = half eucl cents i j := by
      unfold half; rw [min_eq_left hij.le, max_eq_right hij.le]
    set d := eucl (cents i) (cents j) / 2 with hd
    have hdf : fin d := hf i j
    obtain ⟨m1, e1, w1, g1⟩ := set_spec (big := big) h i.isLt j.isLt hne d
    set sv1 := if d < sv i then Function.update sv i d else sv with hsv1
    set sv2 := if d < sv1 j then Function.update sv1 j d else sv1 with hsv2
    have upd : ∀ (s : Fin k → R) (x : Fin k), (∀ c, fin (s c)) →
        let s' := if d < s x then Function.update s x d else s
        (∀ c, fin (s' c)) ∧ (∀ c, val (s' c) ≤ val (s c)) ∧ val (s' x) ≤ val d := by
      intro s x hs
      simp only
      split
      · rename_i h'
        have h' := (hlt _ _ hdf (hs x)).1 h'
        refine ⟨fun c => ?_, fun c => ?_, by rw [Function.update_self]⟩
        · by_cases hc : c = x
          · rw [hc, Function.update_self]; exact hdf
          · rw [Function.update_of_ne hc]; exact hs c
        · by_cases hc : c = x
          · rw [hc, Function.update_self]; exact h'.le
          · rw [Function.update_of_ne hc]
      · rename_i h'
        rw [hlt _ _ hdf (hs x), not_lt] at h'
        exact ⟨hs, fun _ => le_rfl, h'⟩
    obtain ⟨f1, v1, i1⟩ := upd sv i hs
    obtain ⟨f2, v2, j2⟩ := upd sv1 j f1
    obtain ⟨m', sv', e, w, f, a1, a2, a3⟩ :=
      ih (fun p hp => hl p (List.mem_cons_of_mem _ hp)) m1 sv2 w1 f2
    refine ⟨m', sv', ?_, w, f, ?_, fun c => (a2 c).trans ((v2 c).trans (v1 c)), ?_⟩
    · rw [computeLoop]
      simp only
      rw [← hd, e1]
      simp only
      exact e
    · intro a b hab
      have hcase : (a.val ≠ b.val ∧ ((a.val = i.val ∧ b.val = j.val) ∨ (a.val = j.val ∧ b.val = i.val))) ↔
          (min a b, max a b) = (i, j) := by
        rw [Prod.mk.injEq]
        constructor
        · rintro ⟨_, ⟨x, y⟩ | ⟨x, y⟩⟩
          · rw [Fin.ext x, Fin.ext y]; exact ⟨min_eq_left hij.le, max_eq_right hij.le⟩
          · rw [Fin.ext x, Fin.ext y]; exact ⟨min_eq_right hij.le, max_eq_left hij.le⟩
        · rintro ⟨x, y⟩
          refine ⟨fun h => hab (Fin.ext h), ?_⟩
          rcases le_total a b with h' | h'
          · rw [min_eq_left h'] at x; rw [max_eq_right h'] at y
            exact Or.inl ⟨by rw [x], by rw [y]⟩
          · rw [min_eq_right h'] at x; rw [max_eq_left h'] at y
            exact Or.inr ⟨by rw [y], by rw [x]⟩
      have hg := g1 a b a.isLt b.isLt
      have hhalf : (min a b, max a b) = (i, j) → d = half eucl cents a b := by
        intro h'
        rw [Prod.mk.injEq] at h'
        rw [hd]; unfold half; rw [h'.1, h'.2]
      constructor
      · intro hm
        by_cases hin : (min a b, max a b) ∈ l
        · exact (a1 a b hab).1 hin
        · have hp : (min a b, max a b) = (i, j) := by
            rcases List.mem_cons.1 hm with h' | h'
            · exact h'
            · exact absurd h' hin
          rw [(a1 a b hab).2 hin, hg, if_pos (hcase.2 hp), hhalf hp]
      · intro hm
        rw [List.mem_cons, not_or] at hm
        rw [(a1 a b hab).2 hm.2, hg, if_neg (fun h' => hm.1 (hcase.1 h'))]
    · intro a b hm
      rcases List.mem_cons.1 hm with hp | hp
      · rw [Prod.mk.injEq] at hp
        have hd' : d = half eucl cents a b := by rw [hd]; unfold half; rw [hp.1, hp.2]
        rw [← hd']
        have : a = i ∨ a = j := by
          rcases le_total a b with h' | h'
          · left; rw [← hp.1, min_eq_left h']
          · right; rw [← hp.2, max_eq_left h']
        rcases this with rfl | rfl
        · exact (a2 a).trans ((v2 a).trans i1)
        · exact (a2 a).trans j2
      · exact a3 a b hp

/-- Result of `compute_dist` in rounded arithmetic. -/
theorem computeDist_near (hlt : ∀ x y, fin x → fin y → (x < y ↔ val x < val y)) {big : R} (hbig : fin big)
    {eucl : Row R n → Row R n → R} {cents : Fin k → Row R n} (hk : 1 < k)
    (hf : ∀ i j, fin (eucl (cents i) (cents j) / 2)) (m : DistMatrix R) (sv : Fin k → R) (h : WF k m) :
    ∃ m' sv', computeDist big eucl cents m sv = .ok (m', sv') ∧ WF k m' ∧ (∀ c, fin (sv' c)) ∧
      (∀ a b : Fin k, a ≠ b → m'.get big a b = .ok (half eucl cents a b)) ∧
      (∀ a b : Fin k, a ≠ b → val (sv' a) ≤ val (half eucl cents a b)) := by
  obtain ⟨m', sv', e, w, f, a1, _, a3⟩ := computeLoop_near (big := big) hlt hf
    (pairs k) (fun p hp => mem_pairs.1 (by simpa using hp)) m (fun _ => big) h (fun _ => hbig)
  have hmem : ∀ a b : Fin k, a ≠ b → (min a b, max a b) ∈ pairs k := fun a b hab =>
    mem_pairs.2 (min_lt_max.2 hab)
  refine ⟨m', sv', ?_, w, f, fun a b hab => (a1 a b hab).1 (hmem a b hab), fun a b hab => a3 a b (hmem a b hab)⟩
  unfold computeDist
  rw [if_neg (by omega), if_neg (by rw [h.rows]; simp)]
  exact e

end Knor.DistMatrix

namespace Knor.Prune

open Knor Knor.Par Knor.Partition Knor.Spec

section Row

variable {R F : Type _} {k n : Nat} [LT R] [DecidableLT R] [LE R] [DecidableLE R] [Field F] [LinearOrder F]
  [IsStrictOrderedRing F] {fin : R → Prop} {val : R → F}

/-- The pruned scan of one row: `T` are the true distances, `d` the computed ones, `h` the computed table, `E` the
error of the bound. -/
theorem pruneLoop_near (hlt : ∀ x y, fin x → fin y → (x < y ↔ val x < val y))
    (hle : ∀ x y, fin x → fin y → (x ≤ y ↔ val x ≤ val y)) {big : R} (hbig : fin big) {d : Fin k → R}
    {h : Fin k → Fin k → R} {dm : DistMatrix R} (hdm : ∀ a c : Fin k, a ≠ c → dm.get big a c = .ok (h a c))
    {T : Fin k → F} {C : Fin k → Fin k → F} {ε E Dm : F}
    (hd : ∀ c, fin (d c) ∧ |val (d c) - T c| ≤ ε ∧ 0 ≤ val (d c) ∧ val (d c) ≤ Dm)
    (hh : ∀ a c, fin (h a c) ∧ |val (h a c) - C a c / 2| ≤ ε ∧ val (h a c) ≤ Dm)
    (htri : ∀ a c, C a c ≤ T a + T c) (hE : ε ≤ E) (l : List (Fin k)) :
    ∀ (done : List (Fin k)) (a : Fin k) (ub : R) (rc : Bool), fin ub → 0 ≤ val ub → T a ≤ val ub + E →
      (rc = true → ub = d a) →
      (∀ c ∈ done, c = a ∨ val ub ≤ T c + (if rc then 2 * E + 3 * ε else E + 2 * ε)) →
      (rc = false → ∀ c ∈ done, c ≠ a → val ub ≤ Dm) →
      ∃ a' ub' rc', pruneLoop big d dm l (a, ub, rc) = .ok (a', ub', rc') ∧ fin ub' ∧ 0 ≤ val ub' ∧
        T a' ≤ val ub' + E ∧ (rc' = true → ub' = d a') ∧
        (∀ c ∈ done ++ l, c = a' ∨ val ub' ≤ T c + (if rc' then 2 * E + 3 * ε else E + 2 * ε)) ∧
        (rc' = false → ∀ c ∈ done ++ l, c ≠ a' → val ub' ≤ Dm) := by
  have hε : ∀ c, 0 ≤ ε := fun c => (abs_nonneg _).trans (hd c).2.1
  induction l with
  | nil =>
    intro done a ub rc h0 h1 h2 h3 h4 h5
    exact ⟨a, ub, rc, rfl, h0, h1, h2, h3, by simpa using h4, by simpa using h5⟩
  | cons c l ih =>
    intro done a ub rc h0 h1 h2 h3 h4 h5
    have he := hε c
    obtain ⟨gv, hget, hgf, hskip⟩ : ∃ gv, dm.get big a c = .ok gv ∧ fin gv ∧
        (c = a ∨ gv = h a c) := by
      by_cases hac : a = c
      · subst hac; exact ⟨big, DistMatrix.get_self big dm a.val, hbig, Or.inl rfl⟩
      · exact ⟨_, hdm a c hac, (hh a c).1, Or.inr rfl⟩
    have happ : ∀ x, x ∈ done ++ c :: l ↔ x ∈ (done ++ [c]) ++ l := by intro x; simp
    simp only [happ]
    -- what a skip tells about `c`
    have skip : ∀ (b : R) (e : F), T a ≤ val b + e → val b ≤ val gv →
        c = a ∨ (val b ≤ T c + (e + 2 * ε) ∧ val b ≤ Dm) := by
      intro b e hb hg
      rcases hskip with hc | rfl
      · exact Or.inl hc
      · right
        have h1 := (abs_le.1 (hh a c).2.1).2
        have h2 := htri a c
        refine ⟨by linarith, hg.trans (hh a c).2.2⟩
    have snoc : ∀ {P : Fin k → Prop}, (∀ x ∈ done, P x) → P c → ∀ x ∈ done ++ [c], P x := by
      intro P hP hc x hx
      rcases List.mem_append.1 hx with hm | hm
      · exact hP x hm
      · rw [List.mem_singleton] at hm; subst hm; exact hc
    rw [pruneLoop, hget]
    simp only
    by_cases hle1 : ub ≤ gv
    · rw [if_pos hle1]
      have hv := (hle _ _ h0 hgf).1 hle1
      cases rc with
      | false =>
        refine ih (done ++ [c]) a ub false h0 h1 h2 (by simp) (snoc h4 ?_) (fun _ => snoc (h5 rfl) ?_)
        · rcases skip ub E h2 hv with h' | h'
          · exact Or.inl h'
          · exact Or.inr h'.1
        · intro hca
          rcases skip ub E h2 hv with h' | h'
          · exact absurd h' hca
          · exact h'.2
      | true =>
        refine ih (done ++ [c]) a ub true h0 h1 h2 h3 (snoc h4 ?_) (by simp)
        have hda := (abs_le.1 (hd a).2.1).1
        have : T a ≤ val ub + ε := by rw [h3 rfl]; linarith
        rcases skip ub ε this hv with h' | h'
        · exact Or.inl h'
        · refine Or.inr ?_
          simp only [if_true]
          linarith [h'.1]
    · rw [if_neg hle1]
      have hub1 : (if rc = true then ub else d a) = d a := by
        split
        · rename_i h; exact h3 h
        · rfl
      simp only [hub1]
      have hda := abs_le.1 (hd a).2.1
      have hTa : T a ≤ val (d a) + ε := by linarith
      -- the clusters done so far, with the exact bound
      have h4' : ∀ x ∈ done, x = a ∨ val (d a) ≤ T x + (2 * E + 3 * ε) := by
        intro x hx
        rcases h4 x hx with h' | h'
        · exact Or.inl h'
        · right
          cases rc with
          | false =>
            simp only [Bool.false_eq_true, if_false] at h'
            linarith
          | true =>
            simp only [if_true] at h'
            rw [h3 rfl] at h'
            exact h'
      by_cases hle2 : d a ≤ gv
      · rw [if_pos hle2]
        have hv := (hle _ _ (hd a).1 hgf).1 hle2
        refine ih (done ++ [c]) a (d a) true (hd a).1 (hd a).2.2.1 (by linarith) (fun _ => rfl) (snoc ?_ ?_) (by simp)
        · simpa using h4'
        · rcases skip (d a) ε hTa hv with h' | h'
          · exact Or.inl h'
          · refine Or.inr ?_
            simp only [if_true]
            linarith [h'.1]
      · rw [if_neg hle2]
        by_cases hj : d c < d a
        · rw [if_pos hj]
          have hv := (hlt _ _ (hd c).1 (hd a).1).1 hj
          have hdc := abs_le.1 (hd c).2.1
          refine ih (done ++ [c]) c (d c) true (hd c).1 (hd c).2.2.1 (by linarith) (fun _ => rfl)
            (snoc ?_ (Or.inl rfl)) (by simp)
          intro x hx
          refine Or.inr ?_
          simp only [if_true]
          rcases h4' x hx with h' | h'
          · subst h'; linarith
          · linarith
        · rw [if_neg hj]
          have hv := not_lt.1 (fun h' => hj ((hlt _ _ (hd c).1 (hd a).1).2 h'))
          have hdc := abs_le.1 (hd c).2.1
          refine ih (done ++ [c]) a (d a) true (hd a).1 (hd a).2.2.1 (by linarith) (fun _ => rfl) (snoc ?_ ?_) (by simp)
          · simpa using h4'
          · refine Or.inr ?_
            simp only [if_true]
            linarith

omit [LE R] [DecidableLE R] [Field F] [IsStrictOrderedRing F] in
theorem init_near (hlt : ∀ x y, fin x → fin y → (x < y ↔ val x < val y)) {d : Fin k → R} (hd : ∀ c, fin (d c))
    {u : R} (hu : fin u) (o : Option (Fin k)) (l : List (Fin k)) :
    (l.foldl (initStep d) (u, o) = (u, o) ∧ ∀ c ∈ l, val u ≤ val (d c)) ∨
    ∃ c ∈ l, l.foldl (initStep d) (u, o) = (d c, some c) ∧ val (d c) < val u ∧ ∀ c' ∈ l, val (d c) ≤ val (d c') := by
  induction l using List.reverseRecOn with
  | nil => left; simp
  | append_singleton l a ih =>
    rw [List.foldl_append]
    simp only [List.foldl_cons, List.foldl_nil]
    rcases ih with ⟨h1, h2⟩ | ⟨c, hc, h1, h2, h3⟩
    · rw [h1]
      unfold initStep
      by_cases h : d a < u
      · right
        have hv := (hlt _ _ (hd a) hu).1 h
        refine ⟨a, by simp, by simp [h], hv, ?_⟩
        intro c' hc'
        rcases List.mem_append.1 hc' with hm | hm
        · exact (lt_of_lt_of_le hv (h2 c' hm)).le
        · rw [List.mem_singleton] at hm; subst hm; exact le_refl _
      · left
        refine ⟨by simp [h], ?_⟩
        intro c' hc'
        rcases List.mem_append.1 hc' with hm | hm
        · exact h2 c' hm
        · rw [List.mem_singleton] at hm; subst hm
          exact not_lt.1 fun h' => h ((hlt _ _ (hd c') hu).2 h')
    · right
      rw [h1]
      unfold initStep
      by_cases h : d a < d c
      · have hv := (hlt _ _ (hd a) (hd c)).1 h
        refine ⟨a, by simp, by simp [h], lt_trans hv h2, ?_⟩
        intro c' hc'
        rcases List.mem_append.1 hc' with hm | hm
        · exact (lt_of_lt_of_le hv (h3 c' hm)).le
        · rw [List.mem_singleton] at hm; subst hm; exact le_refl _
      · refine ⟨c, List.mem_append_left _ hc, by simp [h], h2, ?_⟩
        intro c' hc'
        rcases List.mem_append.1 hc' with hm | hm
        · exact h3 c' hm
        · rw [List.mem_singleton] at hm; subst hm
          exact not_lt.1 fun h' => h ((hlt _ _ (hd c') (hd c)).2 h')

end Row

section Slot

variable {R F : Type _} {k n : Nat} [Add R] [LT R] [DecidableLT R] [LE R] [DecidableLE R] [Div R] [NatCast R]
  [Field F] [LinearOrder F] [IsStrictOrderedRing F] {fin : R → Prop} {val : R → F} {B : F}

/-- A metric whose computed values, and their halves, are within `ε` of the true ones and at most `Dm`, for rows
in a box. -/
structure MetricRounds (fin : R → Prop) (val : R → F) (B : F) (dist : Row R n → Row R n → R) (big : R)
    (dF : (Fin n → F) → (Fin n → F) → F) (ε Dm : F) : Prop where
  big_fin : fin big
  lt_big : Dm < val big
  symm : ∀ x y, dF x y = dF y x
  tri : ∀ x y z, dF x z ≤ dF x y + dF y z
  near : ∀ x y, InBox fin val B x → InBox fin val B y → fin (dist x y) ∧ 0 ≤ val (dist x y) ∧
    val (dist x y) ≤ Dm ∧ |val (dist x y) - dF (fun j => val (x j)) fun j => val (y j)| ≤ ε
  half : ∀ x y, InBox fin val B x → InBox fin val B y → fin (dist x y / 2) ∧ val (dist x y / 2) ≤ Dm ∧
    |val (dist x y / 2) - dF (fun j => val (x j)) (fun j => val (y j)) / 2| ≤ ε

/-- The true distance of row `r` to centroid `c`. -/
def trueDist (val : R → F) (dF : (Fin n → F) → (Fin n → F) → F) (data : Nat → Row R n) (cents : Fin k → Row R n)
    (r : Nat) (c : Fin k) : F :=
  dF (fun j => val (data r j)) fun j => val (cents c j)

/-- The slot of a row before the first pass: no bound yet, or the distance to its own centroid up to `ε`. -/
def StartSlot (fin : R → Prop) (val : R → F) (dF : (Fin n → F) → (Fin n → F) → F) (ε Dm : F) (big : R) (x : Row R n)
    (cents : Fin k → Row R n) (s : Slot R k) : Prop :=
  s.ub = big ∨ ∃ c, s.assign = some c ∧ fin s.ub ∧ 0 ≤ val s.ub ∧ val s.ub ≤ Dm ∧
    |val s.ub - dF (fun j => val (x j)) fun j => val (cents c j)| ≤ ε

/-- What the scan needs of the numbers the workers read. -/
structure ViewNear (fin : R → Prop) (val : R → F) (B : F) (eucl : Row R n → Row R n → R) (big : R) (Dm : F)
    (v : View R R k n) : Prop where
  box : ∀ c, InBox fin val B (v.cents c)
  dm : ∀ a c : Fin k, a ≠ c → v.dm.get big a c = .ok (DistMatrix.half eucl v.cents a c)
  svalFin : ∀ c, fin (v.sval c)
  sval : ∀ a c : Fin k, a ≠ c → val (v.sval a) ≤ val (DistMatrix.half eucl v.cents a c)
  prev : ∀ c, fin (v.prevDist c) ∧ 0 ≤ val (v.prevDist c) ∧ val (v.prevDist c) ≤ Dm

variable {eucl : Row R n → Row R n → R} {big : R} {dF : (Fin n → F) → (Fin n → F) → F} {ε Dm : F}
  {data : Nat → Row R n} {v : View R R k n} {r : Nat} {s : Slot R k}

omit [Add R] [LT R] [DecidableLT R] [LE R] [DecidableLE R] [IsStrictOrderedRing F] in
theorem half_near (hD : MetricRounds fin val B eucl big dF ε Dm) {cents : Fin k → Row R n}
    (hb : ∀ c, InBox fin val B (cents c)) (a c : Fin k) :
    fin (DistMatrix.half eucl cents a c) ∧ |val (DistMatrix.half eucl cents a c) -
      dF (fun j => val (cents a j)) (fun j => val (cents c j)) / 2| ≤ ε ∧
      val (DistMatrix.half eucl cents a c) ≤ Dm := by
  obtain ⟨h1, h2, h3⟩ := hD.half _ _ (hb (min a c)) (hb (max a c))
  refine ⟨h1, ?_, h2⟩
  rcases le_total a c with h | h
  · unfold DistMatrix.half
    rw [min_eq_left h, max_eq_right h] at *
    exact h3
  · unfold DistMatrix.half
    rw [min_eq_right h, max_eq_left h] at *
    rw [hD.symm]
    exact h3

omit [LE R] [DecidableLE R] in
/-- Initial pass over a row. -/
theorem slotStep_init_near [LE R] [DecidableLE R] (hlt : ∀ x y, fin x → fin y → (x < y ↔ val x < val y))
    (hD : MetricRounds fin val B eucl big dF ε Dm) (hx : InBox fin val B (data r))
    (hb : ∀ c, InBox fin val B (v.cents c)) (hk : 0 < k)
    (h : StartSlot fin val dF ε Dm big (data r) v.cents s) :
    ∃ s' a', slotStep eucl big data v true r s = .ok s' ∧ s'.assign = some a' ∧ fin s'.ub ∧ 0 ≤ val s'.ub ∧
      val s'.ub ≤ Dm ∧ trueDist val dF data v.cents r a' ≤ val s'.ub + ε ∧
      ∀ c, trueDist val dF data v.cents r a' ≤ trueDist val dF data v.cents r c + 2 * ε := by
  have hd := fun c => hD.near _ _ hx (hb c)
  have huf : fin s.ub := by
    rcases h with h | ⟨c, _, h, _⟩
    · rw [h]; exact hD.big_fin
    · exact h
  have fin' : ∀ a', (∀ c, val (eucl (data r) (v.cents a')) ≤ val (eucl (data r) (v.cents c))) →
      trueDist val dF data v.cents r a' ≤ val (eucl (data r) (v.cents a')) + ε ∧
      ∀ c, trueDist val dF data v.cents r a' ≤ trueDist val dF data v.cents r c + 2 * ε := by
    intro a' hmin
    have h1 := abs_le.1 (hd a').2.2.2
    refine ⟨by unfold trueDist; linarith, fun c => ?_⟩
    have h2 := abs_le.1 (hd c).2.2.2
    have h3 := hmin c
    unfold trueDist
    linarith
  unfold slotStep
  simp only [if_true]
  rcases init_near hlt (fun c => (hd c).1) huf s.assign (List.finRange k) with ⟨h1, h2⟩ | ⟨c, _, h1, _, h3⟩
  · rcases h with h | ⟨c, hc, u1, u2, u3, u4⟩
    · have := h2 ⟨0, hk⟩ (List.mem_finRange _)
      rw [h] at this
      have h4 := (hd ⟨0, hk⟩).2.2.1
      have h5 := hD.lt_big
      linarith
    · rw [h1, hc]
      have u5 := abs_le.1 u4
      refine ⟨_, c, rfl, rfl, huf, u2, u3, ?_, fun c' => ?_⟩
      · unfold trueDist; dsimp only; linarith
      · have h6 := abs_le.1 (hd c').2.2.2
        have h7 := h2 c' (List.mem_finRange c')
        unfold trueDist
        linarith
  · rw [h1]
    exact ⟨_, c, rfl, rfl, (hd c).1, (hd c).2.1, (hd c).2.2.1, fin' c fun c' => h3 c' (List.mem_finRange c')⟩

/-- Pruned pass over a row. -/
theorem slotStep_prune_near (hlt : ∀ x y, fin x → fin y → (x < y ↔ val x < val y))
    (hle : ∀ x y, fin x → fin y → (x ≤ y ↔ val x ≤ val y)) {u M : F} (hu0 : 0 ≤ u) (hu : u ≤ 1)
    (hadd : ∀ x y, fin x → fin y → |val x + val y| ≤ M →
      fin (x + y) ∧ |val (x + y) - (val x + val y)| ≤ u * |val x + val y|)
    (hM : 2 * Dm ≤ M)
    (hD : MetricRounds fin val B eucl big dF ε Dm) (hx : InBox fin val B (data r))
    (hv : ViewNear fin val B eucl big Dm v) (hk : 1 < k) {a : Fin k} (ha : s.assign = some a)
    (hs : fin s.ub ∧ 0 ≤ val s.ub ∧ val s.ub ≤ Dm) {E E' : F} (hEE : E + u * (2 * Dm) ≤ E') (hE : ε ≤ E')
    (hub : trueDist val dF data v.cents r a ≤ val s.ub + val (v.prevDist a) + E) :
    ∃ s' a', slotStep eucl big data v false r s = .ok s' ∧ s'.assign = some a' ∧ fin s'.ub ∧ 0 ≤ val s'.ub ∧
      val s'.ub ≤ Dm ∧ trueDist val dF data v.cents r a' ≤ val s'.ub + E' ∧
      ∀ c, trueDist val dF data v.cents r a' ≤ trueDist val dF data v.cents r c + (2 * E' + 4 * ε) := by
  have hd := fun c => hD.near _ _ hx (hv.box c)
  have hε : 0 ≤ ε := (abs_nonneg _).trans (hd a).2.2.2
  obtain ⟨p1, p2, p3⟩ := hv.prev a
  have hsum : |val s.ub + val (v.prevDist a)| = val s.ub + val (v.prevDist a) := abs_of_nonneg (by linarith)
  obtain ⟨fu, eu⟩ := hadd s.ub (v.prevDist a) hs.1 p1 (by rw [hsum]; linarith)
  rw [hsum] at eu
  have hs2 : val s.ub + val (v.prevDist a) ≤ 2 * Dm := by linarith
  have hle2 : u * (val s.ub + val (v.prevDist a)) ≤ u * (2 * Dm) := mul_le_mul_of_nonneg_left hs2 hu0
  have hu0' : 0 ≤ val (s.ub + v.prevDist a) := by
    have h1 := (abs_le.1 eu).1
    have h2 : u * (val s.ub + val (v.prevDist a)) ≤ 1 * (val s.ub + val (v.prevDist a)) :=
      mul_le_mul_of_nonneg_right hu (by linarith)
    linarith
  have hTa : trueDist val dF data v.cents r a ≤ val (s.ub + v.prevDist a) + E' := by
    have h1 := (abs_le.1 eu).1
    linarith
  have htri : ∀ a c, dF (fun j => val (v.cents a j)) (fun j => val (v.cents c j)) ≤
      trueDist val dF data v.cents r a + trueDist val dF data v.cents r c := by
    intro a c
    have := hD.tri (fun j => val (v.cents a j)) (fun j => val (data r j)) (fun j => val (v.cents c j))
    rw [hD.symm (fun j => val (v.cents a j)) (fun j => val (data r j))] at this
    exact this
  obtain ⟨b, hb⟩ : ∃ b : Fin k, a ≠ b := by
    by_cases h : a.val = 0
    · exact ⟨⟨1, hk⟩, fun e => by rw [e] at h; simp at h⟩
    · exact ⟨⟨0, by omega⟩, fun e => h (by rw [e])⟩
  unfold slotStep
  simp only [Bool.false_eq_true, if_false, ha]
  by_cases hsv : s.ub + v.prevDist a ≤ v.sval a
  · rw [if_pos hsv]
    have hv1 := (hle _ _ fu (hv.svalFin a)).1 hsv
    refine ⟨_, a, rfl, rfl, fu, hu0', ?_, hTa, ?_⟩
    · exact hv1.trans ((hv.sval a b hb).trans (half_near hD hv.box a b).2.2)
    · intro c
      by_cases hac : a = c
      · subst hac; linarith
      · have h1 := hv1.trans (hv.sval a c hac)
        have h2 := (abs_le.1 (half_near hD hv.box a c).2.1).2
        have h3 := htri a c
        linarith
  · rw [if_neg hsv]
    obtain ⟨a', ub', rc', e, k1, k2, k3, k4, k5, k6⟩ := pruneLoop_near (d := fun c => eucl (data r) (v.cents c))
      (T := trueDist val dF data v.cents r) hlt hle hD.big_fin hv.dm
      (fun c => ⟨(hd c).1, (hd c).2.2.2, (hd c).2.1, (hd c).2.2.1⟩) (fun a c => half_near hD hv.box a c) htri hE
      (List.finRange k) [] a (s.ub + v.prevDist a) false fu hu0' hTa (by simp) (by simp) (by simp)
    rw [e]
    refine ⟨_, a', rfl, rfl, k1, k2, ?_, k3, ?_⟩
    · cases rc' with
      | true => simp only; rw [k4 rfl]; exact (hd a').2.2.1
      | false =>
        obtain ⟨b, hb⟩ : ∃ b : Fin k, b ≠ a' := by
          by_cases h : a'.val = 0
          · exact ⟨⟨1, hk⟩, fun e => by rw [← e] at h; simp at h⟩
          · exact ⟨⟨0, by omega⟩, fun e => h (by rw [← e])⟩
        exact k6 rfl b (by simp) hb
    · intro c
      rcases k5 c (by simp) with h | h
      · subst h; linarith
      · cases rc' with
        | true =>
          simp only [if_true] at h
          have h1 := (abs_le.1 (hd a').2.2.2).1
          rw [k4 rfl] at h
          unfold trueDist at h ⊢
          linarith
        | false =>
          simp only [Bool.false_eq_true, if_false] at h
          linarith

end Slot

end Knor.Prune
