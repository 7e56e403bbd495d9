import Mathlib.Algebra.Order.Field.Rat
import Mathlib.Data.Fin.VecNotation
import Verif.Lemmas.FlatClusters
import Verif.Lemmas.Clusters
import Verif.Model.Xmeans

/-!
# C103: a container of clusters behaves like one cell per cluster
-/

namespace Knor.Flat

open Knor.Spec

variable {R : Type _} {k n : Nat}

section
variable [Zero R] [One R] [Add R] [Sub R] [Mul R] [Div R] [IntCast R]

/-- A container of `k` clusters over `n` columns answers every question about cluster `c` with the cell `f c`. -/
def Shows (s : Obj R) (f : Fin k → Cell R n) : Prop :=
  s.nclust = k ∧ s.ncol = n ∧
    ∀ c : Fin k, (∀ j : Fin n, getMean s c.val j.val = .ok ((f c).sum j)) ∧ getNum s c.val = .ok (f c).cnt ∧
      isComplete s c.val = .ok (f c).done

omit [Zero R] [One R] [Add R] [Sub R] [Mul R] [Div R] [IntCast R] in
theorem shows_obj (f : Fin k → Cell R n) : Shows (obj f) f :=
  ⟨rfl, rfl, fun c => ⟨getMean_obj f c, getNum_obj f c, isComplete_obj f c⟩⟩

/-- Any history of calls on a fresh container, whatever the arithmetic: no call fails, and the cell of every cluster is
what its own calls made of it, provided that `k * n` fits into 32 bits. -/
theorem C103_cells (hk : k < 4294967296) (hs : k * n < 4294967296) (h : List (Call R k n)) :
    ∃ s, exec (create k n) h = .ok s ∧ Shows s fun c => cellAfter h c := by
  refine ⟨_, ?_, shows_obj _⟩
  rw [create_obj hs, exec_obj hk hs]
  rfl

/-- The same from a container constructed with means. -/
theorem C103_from_means (hk : k < 4294967296) (hs : k * n < 4294967296) (m : Fin k → Fin n → R)
    (h : List (Call R k n)) :
    ∃ s0 s, createWith k n (flat m) = .ok s0 ∧ exec s0 h = .ok s ∧
      Shows s fun c => h.foldl (fun s call => call.on c s) (⟨m c, 0, true⟩ : Cell R n) :=
  ⟨_, _, createWith_obj hs m, exec_obj hk hs h _, shows_obj _⟩

/-- Calls about other clusters leave a cluster alone. -/
theorem C103_frame (hk : k < 4294967296) (hs : k * n < 4294967296) (h : List (Call R k n)) (x : Fin n → R)
    (a b : Fin k) (hab : a ≠ b) :
    ∃ s s', exec (create k n) h = .ok s ∧ addMember s (List.ofFn x) a.val = .ok s' ∧
      (∀ j : Fin n, getMean s' b.val j.val = getMean s b.val j.val) ∧ getNum s' b.val = getNum s b.val ∧
      (∀ j : Fin n, getMean s' a.val j.val = .ok ((cellAfter h a).sum j + x j)) ∧
      getNum s' a.val = .ok ((cellAfter h a).cnt + 1) := by
  have h1 := exec_obj hk hs h fun _ : Fin k => (Cell.zero : Cell R n)
  rw [← create_obj hs] at h1
  refine ⟨_, _, h1, addMember_obj hs _ x a, fun j => ?_, ?_, fun j => ?_, ?_⟩
  · rw [getMean_obj, getMean_obj, if_neg hab.symm]
  · rw [getNum_obj, getNum_obj, if_neg hab.symm]
  · rw [getMean_obj, if_pos rfl]; rfl
  · rw [getNum_obj, if_pos rfl]; rfl

end

/-! ## The abstraction used by the rest of the model -/

/-- The cells of the abstract container of Model/Clusters.lean. -/
def cells (s : Clusters R k n) (c : Fin k) : Cell R n := ⟨s.means c, s.num c, s.complete c⟩

/-- `a` is stored as `s`. -/
def Stores (s : Obj R) (a : Clusters R k n) : Prop := s = obj (cells a)

/-- Each operation of the abstract container is the operation of the stored one. -/
theorem C103_abstraction [Zero R] [One R] [Add R] [Sub R] [Mul R] [Div R] [IntCast R] (hk : k < 4294967296)
    (hs : k * n < 4294967296) (s : Obj R) (a : Clusters R k n) (h : Stores s a) :
    (∀ x c, ∃ s', addMember s (List.ofFn x) c.val = .ok s' ∧ Stores s' (a.addMember x c)) ∧
    (∀ x c, ∃ s', removeMember s (List.ofFn x) c.val = .ok s' ∧ Stores s' (a.removeMember x c)) ∧
    (∀ x c d, ∃ s', swapMembership s (List.ofFn x) c.val d.val = .ok s' ∧ Stores s' (a.swapMembership x c d)) ∧
    (∀ t b, Stores t b → ∃ s', peq s t = .ok s' ∧ Stores s' (a.peq b)) ∧
    (∀ c, ∃ s', finalize s c.val = .ok s' ∧ Stores s' (a.finalize c)) ∧
    (∀ c, ∃ s', unfinalize s c.val = .ok s' ∧ Stores s' (a.unfinalize c)) ∧
    (∃ s', finalizeAll s = .ok s' ∧ Stores s' a.finalizeAll) ∧
    (∃ s', unfinalizeAll s = .ok s' ∧ Stores s' a.unfinalizeAll) ∧
    (∀ x c, ∃ s', setMean s (List.ofFn x) c.val = .ok s' ∧ Stores s' (a.setMean x c)) ∧
    (∀ m, ∃ s', setMeans s (flat m) = .ok s' ∧ Stores s' (a.setMeans m)) ∧
    (∀ v, ∃ s', setNum s (List.ofFn v) = .ok s' ∧ Stores s' (a.setNum v)) ∧
    (∃ s', setCompleteAll s true = .ok s' ∧ Stores s' a.setCompleteAll) ∧
    (∀ f c x, ∃ s', scaleCentroid s f c.val (List.ofFn x) = .ok s' ∧ Stores s' (a.scaleCentroid f c x)) ∧
    Stores (clear s) (Clusters.empty : Clusters R k n) ∧ Stores (create k n : Obj R) (Clusters.empty : Clusters R k n) := by
  unfold Stores at h
  subst h
  have cell_if : ∀ (c d : Fin k) (p q : Cell R n), (if c = d then p else q).sum = if c = d then p.sum else q.sum := by
    intro c d p q; split <;> rfl
  refine ⟨fun x c => ⟨_, doCall_obj hk hs _ (.add x c), ?_⟩, fun x c => ⟨_, doCall_obj hk hs _ (.remove x c), ?_⟩,
    fun x c d => ⟨_, doCall_obj hk hs _ (.swap x c d), ?_⟩,
    fun t b ht => by subst ht; exact ⟨_, doCall_obj hk hs _ (.peq (cells b)), rfl⟩,
    fun c => ⟨_, doCall_obj hk hs _ (.finalize c), ?_⟩, fun c => ⟨_, doCall_obj hk hs _ (.unfinalize c), ?_⟩,
    ⟨_, doCall_obj hk hs _ .finalizeAll, ?_⟩, ⟨_, doCall_obj hk hs _ .unfinalizeAll, ?_⟩,
    fun x c => ⟨_, doCall_obj hk hs _ (.setMean x c), ?_⟩,
    fun m => ⟨_, doCall_obj hk hs _ (.setMeans m), rfl⟩,
    fun v => ⟨_, doCall_obj hk hs _ (.setNum v), rfl⟩,
    ⟨_, doCall_obj hk hs _ (.setCompleteAll true), rfl⟩,
    fun f c x => ⟨_, doCall_obj hk hs _ (.scale f c x), ?_⟩,
    ?_, create_obj hs⟩
  · refine congrArg obj (funext fun d => ?_)
    by_cases hd : d = c
    · subst hd; simp [Call.on, cells, Cell.add, Clusters.addMember]
    · simp [Call.on, cells, Clusters.addMember, hd]
  · refine congrArg obj (funext fun d => ?_)
    by_cases hd : d = c
    · subst hd; simp [Call.on, cells, Cell.remove, Clusters.removeMember, Int.sub_eq_add_neg]
    · simp [Call.on, cells, Clusters.removeMember, hd]
  · refine congrArg obj (funext fun e => ?_)
    by_cases hd : e = d
    · subst hd
      by_cases hc : e = c
      · subst hc
        simp [Call.on, cells, Cell.remove, Cell.add, Clusters.removeMember, Clusters.addMember, Clusters.swapMembership,
          Int.sub_eq_add_neg]
      · simp [Call.on, cells, Cell.add, Clusters.removeMember, Clusters.addMember, Clusters.swapMembership, hc]
    · by_cases hc : e = c
      · subst hc
        simp [Call.on, cells, Cell.remove, Clusters.removeMember, Clusters.addMember, Clusters.swapMembership,
          Int.sub_eq_add_neg, hd]
      · simp [Call.on, cells, Clusters.removeMember, Clusters.addMember, Clusters.swapMembership, hc, hd]
  · refine congrArg obj (funext fun d => ?_)
    by_cases hd : d = c
    · subst hd
      cases hdone : a.complete d <;> simp [Call.on, cells, Cell.finalize, Clusters.finalize, hdone]
      by_cases h1 : 1 < a.num d <;> simp [h1]
    · cases hdone : a.complete c <;> simp [Call.on, cells, Clusters.finalize, hdone, hd]
  · refine congrArg obj (funext fun d => ?_)
    by_cases hd : d = c
    · subst hd
      cases hdone : a.complete d <;> simp [Call.on, cells, Cell.unfinalize, Clusters.unfinalize, hdone]
      by_cases h1 : a.num d < 2 <;> simp [h1]
    · cases hdone : a.complete c <;> simp [Call.on, cells, Clusters.unfinalize, hdone, hd]
  · refine congrArg obj (funext fun d => ?_)
    unfold cells
    rw [Clusters.finalizeAll_means, Clusters.finalizeAll_num, Clusters.finalizeAll_complete]
    cases hdone : a.complete d <;> simp [Call.on, Cell.finalize, Clusters.finMean, hdone]
    by_cases h1 : 1 < a.num d <;> simp [h1]
  · refine congrArg obj (funext fun d => ?_)
    unfold cells
    rw [Clusters.unfinalizeAll_means, Clusters.unfinalizeAll_num, Clusters.unfinalizeAll_complete]
    cases hdone : a.complete d <;> simp [Call.on, Cell.unfinalize, Clusters.unfinMean, hdone]
    by_cases h1 : a.num d < 2 <;> simp [h1]
  · refine congrArg obj (funext fun d => ?_)
    by_cases hd : d = c
    · subst hd; simp [Call.on, cells, Clusters.setMean]
    · simp [Call.on, cells, Clusters.setMean, hd]
  · refine congrArg obj (funext fun d => ?_)
    by_cases hd : d = c
    · subst hd; simp [Call.on, cells, Clusters.scaleCentroid]
    · simp [Call.on, cells, Clusters.scaleCentroid, hd]
  · have := doCall_obj hk hs (cells a) .clear
    simp only [doCall, Except.ok.injEq] at this
    exact this

/-! ## Comparison -/

theorem vEq_ok {α : Type _} [DecidableEq α] : ∀ (v w : List α), v.length = w.length → Io.vEq v w = .ok (decide (v = w))
  | [], [], _ => by simp [Io.vEq]
  | [], _ :: _, h => by simp at h
  | _ :: _, [], h => by simp at h
  | x :: xs, y :: ys, h => by
    unfold Io.vEq
    by_cases hxy : x = y
    · rw [if_pos hxy, vEq_ok xs ys (by simpa using h)]
      simp [hxy]
    · rw [if_neg hxy]
      simp [hxy]

theorem flat_inj {f g : Fin k → Fin n → R} (h : flat f = flat g) : f = g := by
  funext c j
  have h1 := flat_get f c j
  rw [h, flat_get] at h1
  exact (Option.some.inj h1).symm

/-- Two containers of the same size are equal exactly when all means and all counts are; the flags do not count. -/
theorem C103_eq [DecidableEq R] [Zero R] [One R] [Add R] [Sub R] [Mul R] [Div R] [IntCast R] (hk : k < 4294967296)
    (hs : k * n < 4294967296) (h h' : List (Call R k n)) :
    ∃ s s' b, exec (create k n) h = .ok s ∧ exec (create k n) h' = .ok s' ∧ eq s s' = .ok b ∧
      (b = true ↔ ∀ c, (cellAfter h c).sum = (cellAfter h' c).sum ∧ (cellAfter h c).cnt = (cellAfter h' c).cnt) := by
  have h1 := exec_obj hk hs h fun _ : Fin k => (Cell.zero : Cell R n)
  have h2 := exec_obj hk hs h' fun _ : Fin k => (Cell.zero : Cell R n)
  rw [← create_obj hs] at h1 h2
  change exec (create k n) h = .ok (obj fun c => cellAfter h c) at h1
  change exec (create k n) h' = .ok (obj fun c => cellAfter h' c) at h2
  refine ⟨_, _, decide ((fun c => (cellAfter h c).cnt) = (fun c => (cellAfter h' c).cnt) ∧
    (fun c => (cellAfter h c).sum) = (fun c => (cellAfter h' c).sum)), h1, h2, ?_, ?_⟩
  · unfold eq
    rw [if_neg (by simp [obj])]
    have e1 : ∀ g : Fin k → Cell R n, (obj g).num = List.ofFn fun c => (g c).cnt := fun _ => rfl
    have e2 : ∀ g : Fin k → Cell R n, (obj g).means = flat fun c => (g c).sum := fun _ => rfl
    rw [e1, e1, vEq_ok _ _ (by simp), e2, e2, vEq_ok _ _ (by simp)]
    by_cases hc : (fun c => (cellAfter h c).cnt) = (fun c => (cellAfter h' c).cnt)
    · by_cases hm : (fun c => (cellAfter h c).sum) = (fun c => (cellAfter h' c).sum)
      · simp [hc, hm]
      · have : flat (fun c => (cellAfter h c).sum) ≠ flat (fun c => (cellAfter h' c).sum) := fun e => hm (flat_inj e)
        simp [hc, hm, this]
    · have : (List.ofFn fun c => (cellAfter h c).cnt) ≠ List.ofFn fun c => (cellAfter h' c).cnt :=
        fun e => hc (List.ofFn_injective e)
      simp [hc, this]
  · rw [decide_eq_true_iff, funext_iff, funext_iff]
    exact ⟨fun e c => ⟨e.2 c, e.1 c⟩, fun e => ⟨fun c => (e c).2, fun c => (e c).1⟩⟩

/-! ## Copying -/

/-- What `a = b` does with two containers of the same size: `a` gets the means and counts of `b` and keeps its own
completion flags. -/
theorem C103_assign_partial [Zero R] [One R] [Add R] [Sub R] [Mul R] [Div R] [IntCast R] (hk : k < 4294967296)
    (hs : k * n < 4294967296) (h h' : List (Call R k n)) :
    ∃ s s', exec (create k n) h = .ok s ∧ exec (create k n) h' = .ok s' ∧
      Shows (assign s s') fun c => { cellAfter h' c with done := (cellAfter h c).done } := by
  have h1 := exec_obj hk hs h fun _ : Fin k => (Cell.zero : Cell R n)
  have h2 := exec_obj hk hs h' fun _ : Fin k => (Cell.zero : Cell R n)
  rw [← create_obj hs] at h1 h2
  exact ⟨_, _, h1, h2, shows_obj fun c => { cellAfter h' c with done := (cellAfter h c).done }⟩

/-- The history that adds the rows 2 and 4 to the only cluster and divides. -/
def twoFour : List (Call ℚ 1 1) := [.add (fun _ => 2) 0, .add (fun _ => 4) 0, .finalizeAll]

/-- A copy of a container is not a copy: the mean 3 of the original, divided again in the copy, is 3/2. -/
theorem C103_assign_violated :
    ∃ s s', exec (create 1 1) twoFour = .ok s ∧ getMean s 0 0 = .ok 3 ∧
      finalizeAll s = .ok s ∧ finalizeAll (assign (create 1 1) s) = .ok s' ∧ getMean s' 0 0 = .ok (3 / 2) :=
  ⟨⟨1, 1, [2], [true], [3]⟩, ⟨1, 1, [2], [true], [3 / 2]⟩, by decide +kernel, by decide +kernel, by decide +kernel,
    by decide +kernel, by decide +kernel⟩

/-- And a smaller container that is assigned a larger one has too few flags. -/
theorem C103_assign_ub : finalizeAll (assign (create 1 1) (create 2 1 : Obj ℚ)) = .error .ub := by decide +kernel

/-! ## Calls that do not do what their siblings do -/

/-- `set_mean` from an iterator, on every container: the last number is stored at the first column of the cluster, and
nothing else changes. -/
theorem C103_set_mean_iterator (s : Obj R) (x : List R) (hx : x ≠ []) (c : Nat) (hc : c * s.ncol < 4294967296)
    (hl : c * s.ncol < s.means.length) :
    setMeanIter s x c = .ok { s with means := s.means.set (c * s.ncol) (x.getLast hx) } := by
  have key : ∀ (x : List R) (hx : x ≠ []) (v : List R), c * s.ncol < v.length →
      setIterLoop (c * s.ncol) x v = .ok (v.set (c * s.ncol) (x.getLast hx)) := by
    intro x
    induction x with
    | nil => intro hx; exact absurd rfl hx
    | cons e es ih =>
      intro hx v hv
      unfold setIterLoop upd
      rw [List.getElem?_eq_getElem hv]
      dsimp only
      cases es with
      | nil => rfl
      | cons e' es' =>
        rw [ih (by simp) _ (by rw [List.length_set]; exact hv), List.set_set]
        rfl
  unfold setMeanIter
  rw [show u32 (c * s.ncol) = c * s.ncol from Nat.mod_eq_of_lt hc, key x hx s.means hl]

/-- So a row of two numbers does not arrive. -/
theorem C103_set_mean_iterator_violated :
    ∃ s, setMeanIter (create 3 2 : Obj ℚ) [7, 8] 2 = .ok s ∧ setMean (create 3 2 : Obj ℚ) [7, 8] 2 ≠ .ok s ∧
      s.means = [0, 0, 0, 0, 8, 0] :=
  ⟨⟨2, 3, [0, 0, 0], [false, false, false], [0, 0, 0, 0, 8, 0]⟩, by decide +kernel, by decide +kernel, rfl⟩

/-- A case of the theorem. -/
example : setMeanIter (create 3 2 : Obj ℚ) [7, 8] 2 = .ok { (create 3 2 : Obj ℚ) with means := [0, 0, 0, 0, 8, 0] } :=
  C103_set_mean_iterator (create 3 2 : Obj ℚ) [7, 8] (by simp) 2 (by decide) (by decide)

/-- `65536` clusters over `65536` columns: the product is `0` in 32 bits, and the first member is written outside the
vector of means. -/
theorem C103_size_violated [Zero R] [Add R] (x : List R) (c : Nat) :
    addMember (create 65536 65536) x c = .error .ub := by
  have e : (create 65536 65536 : Obj R).means = [] := by
    have : u32 (65536 * 65536) = 0 := by decide
    unfold create
    rw [this]
    rfl
  unfold addMember member
  rw [e]
  have e2 : (create 65536 65536 : Obj R).ncol = 65535 + 1 := rfl
  rw [e2]
  simp [cols, upd]

/-! ## The growing container -/

/-- Any history of members, flags and additions on a growing container of `K` clusters over `n` columns, as long as the
room it takes fits into 32 bits: the cell of every cluster there is room for is what its own calls made of it, and
asking for another one throws, and nothing was ever said about it. -/
theorem C103_sparse [Zero R] [Add R] {K : Nat} (hn : 0 < n) (h : List (GCall R n))
    (hs : h.foldl (room n) K * n < 4294967296) :
    ∃ s, execG (create K n) h = .ok s ∧ s.nclust = h.foldl (room n) K ∧
      ∀ c, (c < s.nclust →
        (∀ j : Fin n, getMeanSparse s c j.val = .ok ((h.foldl (fun s call => call.on c s) Cell.zero).sum j)) ∧
        getNum s c = .ok (h.foldl (fun s call => call.on c s) (Cell.zero : Cell R n)).cnt ∧
        isCompleteSparse s c = .ok (h.foldl (fun s call => call.on c s) (Cell.zero : Cell R n)).done) ∧
      (s.nclust ≤ c → h.foldl (fun s call => call.on c s) (Cell.zero : Cell R n) = Cell.zero ∧
        (∀ j, getMeanSparse s c j = .error .throws) ∧ isCompleteSparse s c = .error .throws) := by
  have mono : ∀ (h : List (GCall R n)) (K : Nat), K ≤ h.foldl (room n) K := by
    intro h
    induction h with
    | nil => intro K; exact Nat.le_refl _
    | cons call h ih =>
      intro K
      refine Nat.le_trans ?_ (ih (room n K call))
      cases call with
      | add x c => exact le_max_left _ _
      | setComplete c b => exact le_max_left _ _
      | peq k o =>
        simp only [room]
        have : k ≤ k * n := Nat.le_mul_of_pos_right k hn
        split <;> omega
  have main : ∀ (h : List (GCall R n)) (K : Nat) (F : Nat → Cell R n), (∀ c, K ≤ c → F c = Cell.zero) →
      h.foldl (room n) K * n < 4294967296 →
      execG (objN K F) h = .ok (objN (h.foldl (room n) K) fun c => h.foldl (fun s call => call.on c s) (F c)) ∧
        ∀ c, h.foldl (room n) K ≤ c → h.foldl (fun s call => call.on c s) (F c) = Cell.zero := by
    intro h
    induction h with
    | nil => intro K F hz _; exact ⟨rfl, hz⟩
    | cons call h ih =>
      intro K F hz hs
      simp only [List.foldl_cons] at hs ⊢
      have hs1 : room n K call * n < 4294967296 := lt_of_le_of_lt (Nat.mul_le_mul_right n (mono h _)) hs
      obtain ⟨e, hz', _⟩ := doGCall_objN hn F hz call hs1
      simp only [execG]
      rw [e]
      exact ih _ _ hz' hs
  have hK : K * n < 4294967296 := lt_of_le_of_lt (Nat.mul_le_mul_right n (mono h K)) hs
  obtain ⟨e, hz⟩ := main h K (fun _ => Cell.zero) (fun _ _ => rfl) hs
  have e0 : (create K n : Obj R) = objN K fun _ => (Cell.zero : Cell R n) := create_obj hK
  rw [← e0] at e
  refine ⟨_, e, rfl, fun c => ⟨fun hc => ⟨fun j => ?_, ?_, ?_⟩, fun hc => ⟨hz c hc, fun j => ?_, ?_⟩⟩⟩
  · unfold getMeanSparse
    rw [if_neg (by omega)]
    exact getMean_obj (k := h.foldl (room n) K) _ ⟨c, hc⟩ j
  · exact getNum_obj (k := h.foldl (room n) K) _ ⟨c, hc⟩
  · unfold isCompleteSparse
    rw [if_neg (by omega)]
    exact isComplete_obj (k := h.foldl (room n) K) _ ⟨c, hc⟩
  · unfold getMeanSparse
    rw [if_pos hc]
  · unfold isCompleteSparse
    rw [if_pos hc]

/-- `x`, the abstract growing container of Model/Xmeans.lean, is stored as `s`. -/
def StoresSparse (s : Obj R) (x : Xmeans.Sparse R n) : Prop :=
  s = obj fun c : Fin x.nclust => (⟨x.means c.val, x.num c.val, x.complete c.val⟩ : Cell R n)

/-- Each operation of the abstract growing container is the operation of the stored one. -/
theorem C103_sparse_abstraction [Zero R] [Add R] [Mul R] [Div R] [IntCast R] (hn : 0 < n) (s : Obj R)
    (x : Xmeans.Sparse R n) (hx : StoresSparse s x) (hs : x.nclust * n < 4294967296) :
    (∀ row c, (max x.nclust (c + 1)) * n < 4294967296 →
      ∃ s', addSparse s (List.ofFn row) c = .ok s' ∧ StoresSparse s' (x.addMember row c)) ∧
    (∀ t (y z : Xmeans.Sparse R n), StoresSparse t y → x.peq y = .ok z → z.nclust * n < 4294967296 →
      ∃ s', peqSparse s t = .ok s' ∧ StoresSparse s' z) ∧
    (∃ s', finalizeAll s = .ok s' ∧ StoresSparse s' x.finalizeAll) ∧
    (∃ s', unfinalizeAll s = .ok s' ∧ StoresSparse s' x.unfinalizeAll) ∧
    StoresSparse (clear s) x.clear := by
  unfold StoresSparse at hx
  subst hx
  -- the cells, with nothing beyond the last cluster
  let F : Nat → Cell R n := fun c => if c < x.nclust then ⟨x.means c, x.num c, x.complete c⟩ else Cell.zero
  have hF : ∀ c, x.nclust ≤ c → F c = Cell.zero := fun c hc => if_neg (by omega)
  have hF1 : ∀ c, c < x.nclust → F c = ⟨x.means c, x.num c, x.complete c⟩ := fun c hc => if_pos hc
  have e : (obj fun c : Fin x.nclust => (⟨x.means c.val, x.num c.val, x.complete c.val⟩ : Cell R n)) =
      objN x.nclust F := by
    unfold objN
    refine congrArg obj (funext fun c => ?_)
    rw [hF1 c.val c.2]
  rw [e]
  refine ⟨fun row c hb => ?_, fun t y z ht hz hzs => ?_, ?_, ?_, ?_⟩
  · obtain ⟨h1, -, -⟩ := doGCall_objN hn F hF (.add row c) hb
    refine ⟨_, h1, ?_⟩
    unfold StoresSparse objN
    have hcl : (x.addMember row c).nclust = max x.nclust (c + 1) := by
      unfold Xmeans.Sparse.addMember
      by_cases h : x.nclust ≤ c
      · simp only [if_pos h, Xmeans.Sparse.resize]; omega
      · simp only [if_neg h]; omega
    rw [hcl]
    refine congrArg obj (funext fun a => ?_)
    simp only [GCall.on]
    by_cases h : x.nclust ≤ c
    · simp only [Xmeans.Sparse.addMember, if_pos h, Xmeans.Sparse.resize]
      by_cases ha : a.val = c
      · rw [if_pos ha, hF _ (by omega)]
        simp [ha, show ¬ c < x.nclust by omega, Cell.zero, Cell.add]
      · rw [if_neg ha]
        by_cases ha2 : a.val < x.nclust
        · rw [hF1 _ ha2]; simp [ha, ha2]
        · rw [hF _ (by omega)]; simp [ha, ha2, Cell.zero]
    · simp only [Xmeans.Sparse.addMember, if_neg h]
      by_cases ha : a.val = c
      · rw [if_pos ha, hF1 _ (by omega)]
        simp [ha, Cell.add]
      · rw [if_neg ha, hF1 _ (by have := a.2; simp only [room] at this; omega)]
        simp [ha]
  · unfold StoresSparse at ht
    subst ht
    have hroom : room n x.nclust (.peq y.nclust fun c => (⟨y.means c.val, y.num c.val, y.complete c.val⟩ : Cell R n)) =
        z.nclust := by
      simp only [room]
      unfold Xmeans.Sparse.peq at hz
      by_cases h : x.nclust < y.nclust
      · have h1 : x.nclust * n < y.nclust * n := Nat.mul_lt_mul_of_pos_right h hn
        simp only [if_pos h1] at hz
        split at hz
        · simp at hz
        · simp only [Except.ok.injEq] at hz
          rw [← hz, if_pos h]
          rfl
      · have h1 : ¬ x.nclust * n < y.nclust * n := by
          have := Nat.mul_le_mul_right n (Nat.le_of_not_lt h)
          omega
        simp only [if_neg h1] at hz
        split at hz
        · simp at hz
        · simp only [Except.ok.injEq] at hz
          rw [← hz, if_neg h]
    obtain ⟨h1, -, -⟩ := doGCall_objN hn F hF
      (.peq y.nclust fun c => (⟨y.means c.val, y.num c.val, y.complete c.val⟩ : Cell R n)) (by rw [hroom]; exact hzs)
    rw [hroom] at h1
    refine ⟨_, h1, ?_⟩
    unfold StoresSparse objN
    refine congrArg obj (funext fun a => ?_)
    simp only [GCall.on]
    unfold Xmeans.Sparse.peq at hz
    by_cases h : x.nclust * n < y.nclust * n
    · simp only [if_pos h] at hz
      split at hz
      · simp at hz
      · simp only [Except.ok.injEq] at hz
        have hzm : ∀ i, z.means i = if i < y.nclust then
            fun j => (x.resize (y.nclust * n)).means i j + y.means i j
            else (x.resize (y.nclust * n)).means i := by rw [← hz]; exact fun _ => rfl
        have hzn : ∀ i, z.num i = if i < y.nclust then (x.resize (y.nclust * n)).num i + y.num i
            else (x.resize (y.nclust * n)).num i := by rw [← hz]; exact fun _ => rfl
        have hzc : ∀ i, z.complete i = (x.resize (y.nclust * n)).complete i := by rw [← hz]; exact fun _ => rfl
        rw [hzm, hzn, hzc]
        simp only [Xmeans.Sparse.resize]
        by_cases ha : a.val < x.nclust
        · rw [hF1 _ ha]
          by_cases hy : a.val < y.nclust <;> simp [ha, hy, Cell.plus]
        · rw [hF _ (by omega)]
          by_cases hy : a.val < y.nclust <;> simp [ha, hy, Cell.plus, Cell.zero]
    · simp only [if_neg h] at hz
      split at hz
      · simp at hz
      · simp only [Except.ok.injEq] at hz
        have hzm : ∀ i, z.means i = if i < y.nclust then fun j => x.means i j + y.means i j
            else x.means i := by rw [← hz]; exact fun _ => rfl
        have hzn : ∀ i, z.num i = if i < y.nclust then x.num i + y.num i else x.num i := by rw [← hz]; exact fun _ => rfl
        have hzc : ∀ i, z.complete i = x.complete i := by rw [← hz]; exact fun _ => rfl
        have hzk : z.nclust = x.nclust := by rw [← hz]
        have ha : a.val < x.nclust := by have := a.2; omega
        rw [hzm, hzn, hzc, hF1 _ ha]
        by_cases hy : a.val < y.nclust <;> simp [hy, Cell.plus]
  · rw [← e]
    refine ⟨_, forClusters_obj (φ := fun s => s.finalize) (fun f c => finalize_obj hs f c) x.nclust 0 (by omega) _, ?_⟩
    refine congrArg obj (funext fun d => ?_)
    have hd := d.2
    simp only [Nat.zero_le, if_true, Xmeans.Sparse.finalizeAll, Cell.finalize]
    cases hdone : x.complete d.val <;> by_cases h1 : 1 < x.num d.val <;>
      simp [h1, show d.val < x.nclust from hd]
  · rw [← e]
    refine ⟨_, forClusters_obj (φ := fun s => s.unfinalize) (fun f c => unfinalize_obj hs f c) x.nclust 0 (by omega) _, ?_⟩
    refine congrArg obj (funext fun d => ?_)
    have hd := d.2
    simp only [Nat.zero_le, if_true, Xmeans.Sparse.unfinalizeAll, Cell.unfinalize]
    cases hdone : x.complete d.val <;> by_cases h1 : x.num d.val < 2 <;>
      simp [h1, show d.val < x.nclust from hd]
  · rw [← e]
    unfold StoresSparse clear obj
    congr 1
    · apply List.ext_getElem <;> simp [Xmeans.Sparse.clear, Xmeans.Sparse.create]
    · apply List.ext_getElem <;> simp [Xmeans.Sparse.clear, Xmeans.Sparse.create]
    · apply flat_ext (by simp [Xmeans.Sparse.clear, Xmeans.Sparse.create])
      intro c j
      rw [List.getElem?_map]
      have := flat_get (fun c : Fin x.nclust => x.means c.val) c j
      rw [this]
      simp [Xmeans.Sparse.clear, Xmeans.Sparse.create]

/-! ## The hypotheses can be met -/

/-- Two clusters over two columns: members, a swap, a division and a merge. -/
def someCalls : List (Call ℚ 2 2) :=
  [.add ![1, 2] 0, .addIt ![3, 4] 0, .add ![5, 6] 1, .swapIt ![3, 4] 0 1, .finalizeAll, .unfinalize 1,
    .peq fun _ => ⟨![1, 1], 1, false⟩]

example : ∃ s, exec (create 2 2) someCalls = .ok s ∧ Shows s fun c => cellAfter someCalls c :=
  C103_cells (by decide) (by decide) someCalls

example : exec (create 2 2) someCalls = .ok ⟨2, 2, [2, 3], [true, false], [2, 3, 9, 11]⟩ := by decide +kernel

example : ∃ s0 s, createWith 2 2 (flat ![![1, 2], ![3, 4]]) = .ok s0 ∧ exec s0 someCalls = .ok s ∧
    Shows s fun c => someCalls.foldl (fun s call => call.on c s) (⟨![![1, 2], ![3, 4]] c, 0, true⟩ : Cell ℚ 2) :=
  C103_from_means (by decide) (by decide) _ someCalls

example := C103_frame (k := 2) (n := 2) (by decide) (by decide) someCalls ![9, 9] 0 1 (by decide)

example := C103_abstraction (k := 2) (n := 2) (by decide) (by decide) (create 2 2 : Obj ℚ) Clusters.empty
  (create_obj (by decide))

example := C103_eq (k := 2) (n := 2) (by decide) (by decide) someCalls (someCalls ++ [.setCompleteAll true])

example := C103_assign_partial (k := 2) (n := 2) (by decide) (by decide) someCalls [.clear]

/-- A growing container that starts with one cluster. -/
def someGrowth : List (GCall ℚ 1) :=
  [.add ![5] 3, .setComplete 1 true, .peq 6 fun _ => ⟨![1], 1, false⟩, .add ![2] 3]

example : someGrowth.foldl (room 1) 1 = 7 := by decide

example := C103_sparse (K := 1) (n := 1) (by decide) someGrowth (by decide)

example : execG (create 1 1) someGrowth =
    .ok ⟨1, 7, [1, 1, 1, 3, 1, 1, 0], [false, true, false, false, false, false, false], [1, 1, 1, 8, 1, 1, 0]⟩ := by
  decide +kernel

example := C103_sparse_abstraction (n := 1) (by decide) (create 3 1 : Obj ℚ) (Xmeans.Sparse.create 3)
  (create_obj (by decide)) (by decide)

/-- Adding a container of two clusters over two columns to a growing one with one cluster makes room for five. -/
theorem C103_sparse_room_violated :
    (∃ s, execG (create 1 2 : Obj ℚ) [(.peq 2 fun _ => ⟨![1, 1], 1, false⟩ : GCall ℚ 2)] = .ok s ∧ s.nclust = 5) :=
  ⟨⟨2, 5, [1, 1, 0, 0, 0], [false, false, false, false, false], [1, 1, 1, 1, 0, 0, 0, 0, 0, 0]⟩, by decide +kernel, rfl⟩

end Knor.Flat
