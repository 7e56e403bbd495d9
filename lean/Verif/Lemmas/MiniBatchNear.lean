import Verif.Lemmas.MiniBatchDriver
import Verif.Lemmas.PruneCallRun
import Verif.Lemmas.DoubleDriver
import Verif.Spec.NearMiniBatch

/-!
# Mini-batch k-means in rounded arithmetic
-/

namespace Knor.MiniBatch

open Knor Knor.Prune Knor.Par Knor.Partition Knor.Spec

variable {R D : Type _} {k n : Nat}

/-! ### Closed forms in any arithmetic -/

section Any

theorem finalizeRows_append_any [One R] [Sub R] [Add R] [Mul R] (data : Nat → Row R n) (a : Nat → Option (Fin k))
    (eta : Fin k → R) (l l' : List Nat) : ∀ s : Clusters R k n,
    finalizeRows data a eta (l ++ l') s = match finalizeRows data a eta l s with
      | .error e => .error e
      | .ok s' => finalizeRows data a eta l' s' := by
  induction l with
  | nil => intro s; rfl
  | cons r rs ih =>
    intro s
    simp only [List.cons_append, finalizeRows]
    cases a r with
    | none => rfl
    | some c => exact ih _

theorem finalizeThreads_any [One R] [Sub R] [Add R] [Mul R] (data : Nat → Row R n) (a : Nat → Option (Fin k))
    (eta : Fin k → R) (sel : Nat → List Nat) (ts : List Nat) : ∀ s : Clusters R k n,
    finalizeThreads data a eta sel ts s = finalizeRows data a eta (ts.flatMap sel) s := by
  induction ts with
  | nil => intro s; rfl
  | cons t ts ih =>
    intro s
    rw [List.flatMap_cons, finalizeRows_append_any]
    simp only [finalizeThreads]
    cases finalizeRows data a eta (sel t) s with
    | error e => rfl
    | ok s' => exact ih s'

variable [LT R] [DecidableLT R] [LT D] [DecidableLT D]

/-- Effect of the sampled E-step on a slot. -/
def slotAny (dist : Row R n → Row R n → D) (data : Nat → Row R n) (cents : Fin k → Row R n) (draw : Nat → R) (frac : R)
    (r : Nat) (s : Slot D k) : Slot D k :=
  if draw r > frac then s
  else
    let p := (List.finRange k).foldl (initStep fun c => dist (data r) (cents c)) (s.ub, s.assign)
    { s with assign := p.2, ub := p.1 }

omit [LT D] [DecidableLT D] in
theorem foldl_select_any (draw : Nat → R) (frac : R) (l : List Nat) : ∀ acc : List Nat,
    l.foldl (fun a r => if draw r > frac then a else a ++ [r]) acc =
      acc ++ l.filter fun r => !decide (draw r > frac) := by
  induction l with
  | nil => simp
  | cons r l ih =>
    intro acc
    rw [List.foldl_cons, ih, List.filter_cons]
    by_cases h : draw r > frac
    · simp [h]
    · simp [h]

theorem mb_phase_any {dist : Row R n → Row R n → D}
    {data : Nat → Row R n} {cents : Fin k → Row R n} {draw : Nat → R} {frac : R} {N nt : Nat}
    {slots : Nat → Slot D k} {sched : List Nat} (hn : 0 < N) (hnt : 0 < nt)
    (hlt : N + 8192 < 4294967296) (hc : Complete (effThreads nt N) (taskRows N nt) sched) :
    ∃ p, Par.run (mbRow dist data cents draw frac)
        { mem := slots, acc := fun _ => [], todo := taskRows N nt } sched = .ok p ∧
      p.mem = (fun r => if r < N then slotAny dist data cents draw frac r (slots r) else slots r) ∧
      (List.range (effThreads nt N)).flatMap p.acc = (List.range N).filter fun r => !decide (draw r > frac) := by
  have hsp := split_taskRows hn hnt hlt
  obtain ⟨p, h1, h2, h3, h4⟩ := Par.run_det (f := mbRow dist data cents draw frac)
    (g := fun r s => .ok (slotAny dist data cents draw frac r s))
    (h := fun r _ _ a => if draw r > frac then a else a ++ [r])
    (by
      intro r m a
      unfold mbRow slotAny
      by_cases h : draw r > frac
      · simp [h]
      · simp [h])
    (s0 := { mem := slots, acc := fun _ => [], todo := taskRows N nt }) hsp hc
    (fun r _ => ⟨_, rfl⟩)
  refine ⟨p, h1, ?_, ?_⟩
  · funext r
    by_cases hr : r < N
    · rw [if_pos hr]
      have := h2 r hr
      simp only [Except.ok.injEq] at this
      exact this.symm
    · rw [if_neg hr]
      exact h3 r (by omega)
  · have hacc : p.acc = fun t => (taskRows N nt t).filter fun r => !decide (draw r > frac) := by
      funext t
      rw [h4 t, foldl_select_any]; rfl
    rw [hacc, ← List.filter_flatMap, flatMap_taskRows hn hnt hlt]

/-- The assignment after the sampled E-step. -/
def newAssign (dist : Row R n → Row R n → D) (data : Nat → Row R n) (cents : Fin k → Row R n) (draw : Nat → R) (frac : R)
    (N : Nat) (slots : Nat → Slot D k) (r : Nat) : Option (Fin k) :=
  if r < N then (slotAny dist data cents draw frac r (slots r)).assign else (slots r).assign

/-- An iteration succeeds if all sampled rows have clusters, and what it does then. -/
theorem iteration_any [One R] [Sub R] [Add R] [Mul R] [Div R] [NatCast R] {dist : Row R n → Row R n → D} {big : D}
    {data : Nat → Row R n} {N nt : Nat} {draw : Nat → R} {frac : R} {sched : List Nat}
    {s : PState R D k n} (hn : 0 < N) (hnt : 0 < nt) (hlt : N + 8192 < 4294967296)
    (hc : Complete (effThreads nt N) (taskRows N nt) sched) {cl : Clusters R k n}
    (h : finalizeRows data (newAssign dist data s.cltrs.means draw frac N s.slots)
      (rates N (newAssign dist data s.cltrs.means draw frac N s.slots))
      ((List.range N).filter fun r => !decide (draw r > frac)) s.cltrs = .ok cl) :
    ∃ s', iteration dist big data N nt draw frac sched s = .ok s' ∧ s'.cltrs = cl ∧ s'.prevMeans = s.cltrs.means ∧
      (∀ r, r < N → (s'.slots r).ub = big) ∧
      (fun r => (s'.slots r).assign) = newAssign dist data s.cltrs.means draw frac N s.slots := by
  obtain ⟨p, h1, h2, h4⟩ := mb_phase_any (dist := dist) (data := data) (cents := s.cltrs.means)
    (draw := draw) (frac := frac) (slots := s.slots) hn hnt hlt hc
  have ha : (fun r => (p.mem r).assign) = newAssign dist data s.cltrs.means draw frac N s.slots := by
    funext r
    rw [h2]
    unfold newAssign
    dsimp only
    split <;> rfl
  unfold iteration
  rw [h1]
  simp only [iterationEnd, finalizeThreads_any, h4, ha, h]
  refine ⟨_, rfl, rfl, rfl, fun r hr => by dsimp only; rw [if_pos hr], ?_⟩
  rw [← ha]
  funext r
  dsimp only
  split <;> rfl

end Any

section Double

open Knor.Kmeans

/-! ### One update -/

/-- The arithmetic of one update: `h` is the computed rate, `a` the computed `1 - h`, `p` and `q` the products and `s`
their sum. -/
theorem update_arith {v τ B η h a c x p q s : ℝ} (hv0 : 0 ≤ v) (hv1 : v ≤ 1 / 8) (hτ : 8 * τ ≤ v * B) (hτ1 : τ ≤ v)
    (hτ0 : 0 ≤ τ)
    (hη0 : 0 ≤ η) (hη1 : η ≤ 1) (hh0 : 0 ≤ h) (hh1 : h ≤ 1) (e1 : |h - η| ≤ v * |η| + τ)
    (e2 : |a - (1 - h)| ≤ v * |1 - h|) (hc : |c| ≤ B) (hx : |x| ≤ B)
    (e3 : |p - a * c| ≤ v * |a * c| + τ) (e4 : |q - h * x| ≤ v * |h * x| + τ) (e5 : |s - (p + q)| ≤ v * |p + q|) :
    |s - (c + η * (x - c))| ≤ 12 * v * B := by
  have hB : 0 ≤ B := (abs_nonneg _).trans hc
  have hvB : 0 ≤ v * B := mul_nonneg hv0 hB
  rw [abs_of_nonneg hη0] at e1
  rw [abs_of_nonneg (by linarith : (0 : ℝ) ≤ 1 - h)] at e2
  have f1 : |h - η| ≤ 2 * v := e1.trans (by nlinarith)
  have f2 : |a - (1 - h)| ≤ v := e2.trans (by nlinarith)
  have f3 : |a| ≤ 1 - h + v := by
    have := abs_add_le (a - (1 - h)) (1 - h)
    rw [sub_add_cancel, abs_of_nonneg (by linarith : (0 : ℝ) ≤ 1 - h)] at this
    linarith
  have g1 : |a * c| ≤ (1 - h + v) * B := by
    rw [abs_mul]; exact mul_le_mul f3 hc (abs_nonneg _) (by linarith)
  have g2 : |h * x| ≤ h * B := by
    rw [abs_mul, abs_of_nonneg hh0]; exact mul_le_mul_of_nonneg_left hx hh0
  have g1' := mul_le_mul_of_nonneg_left g1 hv0
  have g2' := mul_le_mul_of_nonneg_left g2 hv0
  have vv : v * (v * B) ≤ 1 / 8 * (v * B) := mul_le_mul_of_nonneg_right hv1 hvB
  have pq : |p + q| ≤ B + 2 * (v * B) + 2 * τ + v * (v * B) := by
    have h1 : |p| ≤ |p - a * c| + |a * c| := by
      have := abs_add_le (p - a * c) (a * c); rwa [sub_add_cancel] at this
    have h2 : |q| ≤ |q - h * x| + |h * x| := by
      have := abs_add_le (q - h * x) (h * x); rwa [sub_add_cancel] at this
    have h3 := abs_add_le p q
    nlinarith
  have pq' := mul_le_mul_of_nonneg_left pq hv0
  have t1 : |(a - (1 - h)) * c| ≤ v * B := by
    rw [abs_mul]; exact mul_le_mul f2 hc (abs_nonneg _) hv0
  have t2 : |(h - η) * (x - c)| ≤ 2 * v * (2 * B) := by
    rw [abs_mul]
    refine mul_le_mul f1 ?_ (abs_nonneg _) (by linarith)
    have := abs_sub x c
    linarith
  have key : s - (c + η * (x - c)) = (s - (p + q)) + (p - a * c) + (q - h * x) + (a - (1 - h)) * c + (h - η) * (x - c) := by
    ring
  rw [key]
  have h1 := abs_add_le ((s - (p + q)) + (p - a * c) + (q - h * x) + (a - (1 - h)) * c) ((h - η) * (x - c))
  have h2 := abs_add_le ((s - (p + q)) + (p - a * c) + (q - h * x)) ((a - (1 - h)) * c)
  have h3 := abs_add_le ((s - (p + q)) + (p - a * c)) (q - h * x)
  have h4 := abs_add_le (s - (p + q)) (p - a * c)
  have hτv : v * τ ≤ 1 / 8 * τ := mul_le_mul_of_nonneg_right hv1 hτ0
  have vvv : v * (v * (v * B)) ≤ 1 / 8 * (1 / 8 * (v * B)) :=
    mul_le_mul hv1 vv (mul_nonneg hv0 hvB) (by norm_num)
  nlinarith

theorem nearest_ge {x q b : ℝ} (h : NearestDouble x q) (hb : IsDouble b) (hx : b ≤ x) : b ≤ q := by
  by_contra hlt
  push Not at hlt
  have := h.2 b hb
  rw [abs_of_nonneg (by linarith), abs_of_nonneg (by linarith)] at this
  linarith

variable {R : Type _} [Zero R] [One R] [Add R] [Sub R] [Mul R] [Div R] [IntCast R] [NatCast R] [LT R] [LE R]
  {fin : R → Prop} {val : R → ℝ} {sqrt abs' : R → R}

theorem isDouble_one : IsDouble 1 := by
  have := nat_isDouble (m := 1) (by norm_num)
  simpa using this

theorem one_le_max : (1 : ℝ) ≤ maxDouble := by
  have := isDouble_le isDouble_one
  rwa [abs_one] at this

/-- The computed rate. -/
theorem rate_double (hI : IeeeDouble fin val sqrt abs') (h1 : fin (1 : R) ∧ val (1 : R) = 1) {m : Nat} (hm : 0 < m)
    (hm' : m ≤ 2 ^ 53) :
    fin ((1 : R) / (m : R)) ∧ 0 ≤ val ((1 : R) / (m : R)) ∧ val ((1 : R) / (m : R)) ≤ 1 ∧
    |val ((1 : R) / (m : R)) - 1 / (m : ℝ)| ≤ 2 ^ (-53 : Int) * |1 / (m : ℝ)| + 2 ^ (-1075 : Int) := by
  have hd := nat_isDouble hm'
  obtain ⟨f, e⟩ := hI.nat m (isDouble_le hd)
  have ev := nearest_of_double e hd
  have hm1 : (1 : ℝ) ≤ m := by exact_mod_cast hm
  have hm0 : (0 : ℝ) < m := by linarith
  have hle : (1 : ℝ) / m ≤ 1 := by rw [div_le_one hm0]; exact hm1
  have h0 : (0 : ℝ) ≤ 1 / m := by positivity
  have hM : |val (1 : R) / val (m : R)| ≤ maxDouble := by
    rw [h1.2, ev, abs_of_nonneg h0]
    exact hle.trans one_le_max
  obtain ⟨g, e2⟩ := hI.div _ _ h1.1 f (by rw [ev]; exact hm0.ne') hM
  have e3 := nearest_err hM e2
  rw [h1.2, ev] at e2 e3
  refine ⟨g, nearest_nonneg h0 e2, Init.nearest_le e2 isDouble_one hle, e3⟩

/-- One update on doubles. -/
theorem update_double (hI : IeeeDouble fin val sqrt abs') (h1 : fin (1 : R) ∧ val (1 : R) = 1) {m : Nat} (hm : 0 < m)
    (hm' : m ≤ 2 ^ 53) {B : ℝ} (hB1 : 2 ^ (-400 : Int) ≤ B) (hB2 : B ≤ 2 ^ (402 : Int)) {c x : R}
    (hc : fin c ∧ |val c| ≤ B) (hx : fin x ∧ |val x| ≤ B) :
    fin ((1 - 1 / (m : R)) * c + 1 / (m : R) * x) ∧
    |val ((1 - 1 / (m : R)) * c + 1 / (m : R) * x) - (val c + 1 / (m : ℝ) * (val x - val c))| ≤
      6 * 2 ^ (-52 : Int) * B := by
  obtain ⟨rf, r0, r1, re⟩ := rate_double hI h1 hm hm'
  have hB0 : 0 < B := (p_pos _).trans_le hB1
  have hBM : 8 * B ≤ maxDouble := by
    refine le_trans ?_ ((p_le (show (405 : Int) ≤ 1023 by norm_num)).trans p_le_max)
    have e : (2 : ℝ) ^ (405 : Int) = 8 * 2 ^ (402 : Int) := by
      rw [show (405 : Int) = 3 + 402 by norm_num, zpow_add₀ (by norm_num) 3]; norm_num
    rw [e]
    exact mul_le_mul_of_nonneg_left hB2 (by norm_num)
  generalize (1 : R) / (m : R) = h at *
  have hm1 : (1 : ℝ) ≤ m := by exact_mod_cast hm
  have hη0 : (0 : ℝ) ≤ 1 / m := by positivity
  have hη1 : (1 : ℝ) / m ≤ 1 := by rw [div_le_one (by linarith)]; exact hm1
  have hR := hI.rounds
  have hv0 : (0 : ℝ) ≤ 2 ^ (-53 : Int) := (p_pos _).le
  have hv1 : (2 : ℝ) ^ (-53 : Int) ≤ 1 / 8 := by norm_num
  have hτ0 : (0 : ℝ) ≤ 2 ^ (-1075 : Int) := (p_pos _).le
  have hτ : 8 * (2 : ℝ) ^ (-1075 : Int) ≤ 2 ^ (-53 : Int) * B := by
    have h2 := mul_le_mul_of_nonneg_left hB1 hv0
    refine le_trans ?_ h2
    rw [p_mul]
    have : (8 : ℝ) * 2 ^ (-1075 : Int) = 2 ^ (-1072 : Int) := by
      rw [show (-1072 : Int) = 3 + -1075 by norm_num, zpow_add₀ (by norm_num)]; norm_num
    rw [this]
    exact p_le (by norm_num)
  have hτ1 : (2 : ℝ) ^ (-1075 : Int) ≤ 2 ^ (-53 : Int) := p_le (by norm_num)
  have hab : |val (1 : R) - val h| ≤ 1 := by
    rw [h1.2, abs_of_nonneg (by linarith)]; linarith
  obtain ⟨af, ae⟩ := hR.sub 1 h h1.1 rf (hab.trans one_le_max)
  rw [h1.2] at ae
  have haabs : |val (1 - h)| ≤ 2 := by
    have h3 := abs_add_le (val (1 - h) - (1 - val h)) (1 - val h)
    rw [sub_add_cancel, abs_of_nonneg (by linarith : (0 : ℝ) ≤ 1 - val h)] at h3
    rw [abs_of_nonneg (by linarith : (0 : ℝ) ≤ 1 - val h)] at ae
    have h5 : (2 : ℝ) ^ (-53 : Int) * (1 - val h) ≤ 1 / 8 * 1 := mul_le_mul hv1 (by linarith) (by linarith) (by norm_num)
    generalize (2 : ℝ) ^ (-53 : Int) * (1 - val h) = w at *
    linarith
  have hac : |val (1 - h) * val c| ≤ 2 * B := by
    rw [abs_mul]; exact mul_le_mul haabs hc.2 (abs_nonneg _) (by norm_num)
  have hhx : |val h * val x| ≤ B := by
    rw [abs_mul, abs_of_nonneg r0]
    calc val h * |val x| ≤ 1 * B := mul_le_mul r1 hx.2 (abs_nonneg _) (by norm_num)
      _ = B := one_mul _
  obtain ⟨pf, pe⟩ := hR.mul _ _ af hc.1 (hac.trans (by linarith))
  obtain ⟨qf, qe⟩ := hR.mul _ _ rf hx.1 (hhx.trans (by linarith))
  have hvB : (2 : ℝ) ^ (-53 : Int) * B ≤ 1 / 8 * B := mul_le_mul_of_nonneg_right hv1 hB0.le
  have hpq : |val ((1 - h) * c) + val (h * x)| ≤ 8 * B := by
    have h3 := abs_add_le (val ((1 - h) * c) - val (1 - h) * val c) (val (1 - h) * val c)
    have h4 := abs_add_le (val (h * x) - val h * val x) (val h * val x)
    rw [sub_add_cancel] at h3 h4
    have h5 := abs_add_le (val ((1 - h) * c)) (val (h * x))
    have h6 := mul_le_mul_of_nonneg_left hac hv0
    have h7 := mul_le_mul_of_nonneg_left hhx hv0
    generalize (2 : ℝ) ^ (-53 : Int) = v at *
    generalize (2 : ℝ) ^ (-1075 : Int) = τ at *
    linarith
  obtain ⟨sf, se⟩ := hR.add _ _ pf qf (hpq.trans hBM)
  refine ⟨sf, ?_⟩
  have := update_arith hv0 hv1 hτ hτ1 hτ0 hη0 hη1 r0 r1 re ae hc.2 hx.2 pe qe se
  refine this.trans (le_of_eq ?_)
  rw [show (-53 : Int) = -52 + -1 by norm_num, zpow_add₀ (by norm_num)]
  ring

/-! ### The updates of one iteration -/

theorem towards_cons (eta : ℝ) (x p : Fin n → ℝ) (ps : List (Fin n → ℝ)) :
    towards eta x (p :: ps) = towards eta (fun j => x j + eta * (p j - x j)) ps := rfl

/-- Moving two points by the same fraction towards the same points does not take them apart. -/
theorem towards_close {eta : ℝ} (h0 : 0 ≤ eta) (h1 : eta ≤ 1) (ps : List (Fin n → ℝ)) : ∀ (x y : Fin n → ℝ) (j : Fin n),
    |towards eta x ps j - towards eta y ps j| ≤ |x j - y j| := by
  induction ps with
  | nil => intro x y j; exact le_rfl
  | cons p ps ih =>
    intro x y j
    rw [towards_cons, towards_cons]
    refine (ih _ _ j).trans ?_
    have e : x j + eta * (p j - x j) - (y j + eta * (p j - y j)) = (1 - eta) * (x j - y j) := by ring
    rw [e, abs_mul, abs_of_nonneg (by linarith : (0 : ℝ) ≤ 1 - eta)]
    have := mul_le_mul_of_nonneg_right (by linarith : 1 - eta ≤ 1) (abs_nonneg (x j - y j))
    linarith

theorem towards_mem {eta : ℝ} (h0 : 0 ≤ eta) (h1 : eta ≤ 1) {S : Set (Fin n → ℝ)} (hS : Convex ℝ S)
    (ps : List (Fin n → ℝ)) (hp : ∀ p ∈ ps, p ∈ S) : ∀ x ∈ S, towards eta x ps ∈ S := by
  induction ps with
  | nil => intro x hx; exact hx
  | cons p ps ih =>
    intro x hx
    rw [towards_cons]
    refine ih (fun q hq => hp q (List.mem_cons_of_mem _ hq)) _ ?_
    have := hS hx (hp p List.mem_cons_self) (sub_nonneg.2 h1) h0 (by ring)
    have e : (fun j => x j + eta * (p j - x j)) = (1 - eta) • x + eta • p := by
      funext j
      simp only [Pi.add_apply, Pi.smul_apply, smul_eq_mul]
      ring
    rw [e]
    exact this

/-- The rows that move centroid `c`. -/
def movers (a : Nat → Option (Fin k)) (c : Fin k) (l : List Nat) : List Nat := l.filter fun r => decide (a r = some c)

/-- The loop over the sampled rows, on doubles: `y` are points in a box of size `Y` near which the centroids are. -/
theorem finalizeRows_double (hI : IeeeDouble fin val sqrt abs') (h1 : fin (1 : R) ∧ val (1 : R) = 1) {N : Nat}
    (hN : N ≤ 2 ^ 53) {data : Nat → Row R n} {a : Nat → Option (Fin k)} {B Y : ℝ} (hB1 : 2 ^ (-400 : Int) ≤ B)
    (hB2 : B ≤ 2 ^ (402 : Int)) (hYB : Y ≤ B) (hdata : ∀ r, r < N → InBox fin val Y (data r)) (δ : ℝ)
    (hδ : δ = 6 * 2 ^ (-52 : Int) * B) (l : List Nat) (hl : ∀ r ∈ l, r < N ∧ ∃ c, a r = some c) :
    ∀ (s : Clusters R k n) (y : Fin k → Fin n → ℝ) (e : ℝ),
      (∀ c j, fin (s.means c j) ∧ |val (s.means c j) - y c j| ≤ e ∧ |y c j| ≤ Y) → Y + e + l.length * δ ≤ B →
      ∃ s', finalizeRows data a (rates N a) l s = .ok s' ∧
        ∀ c j, fin (s'.means c j) ∧
          |val (s'.means c j) - towards (1 / (Spec.count N a c : ℝ)) (y c)
            ((movers a c l).map fun r j => val (data r j)) j| ≤ |val (s.means c j) - y c j| + (movers a c l).length * δ := by
  have hδ0 : 0 ≤ δ := by
    have h2 := (p_pos (-400)).trans_le hB1
    have h3 := p_pos (-52)
    rw [hδ]; positivity
  induction l with
  | nil =>
    intro s y e hs _
    refine ⟨s, rfl, fun c j => ⟨(hs c j).1, ?_⟩⟩
    show |val (s.means c j) - y c j| ≤ _ + ((0 : Nat) : ℝ) * δ
    simp
  | cons r l ih =>
    intro s y e hs hb
    obtain ⟨hr, c0, hc0⟩ := hl r List.mem_cons_self
    have hl' := fun q hq => hl q (List.mem_cons_of_mem _ hq)
    have hcnt : 1 ≤ Spec.count N a c0 := by
      unfold Spec.count
      exact Finset.card_pos.2 ⟨r, Finset.mem_filter.2 ⟨Finset.mem_range.2 hr, hc0⟩⟩
    have hcN : Spec.count N a c0 ≤ 2 ^ 53 := (count_le a c0).trans hN
    set m := Spec.count N a c0 with hm
    have hm1 : (1 : ℝ) ≤ m := by exact_mod_cast hcnt
    have hη0 : (0 : ℝ) ≤ 1 / m := by positivity
    have hη1 : (1 : ℝ) / m ≤ 1 := by rw [div_le_one (by linarith)]; exact hm1
    have hlen : (((r :: l).length : Nat) : ℝ) = (l.length : ℝ) + 1 := by rw [List.length_cons]; push_cast; ring
    rw [hlen] at hb
    have hll : 0 ≤ (l.length : ℝ) * δ := by positivity
    have hbox : ∀ c j, |val (s.means c j)| ≤ B := fun c j => by
      have := abs_add_le (val (s.means c j) - y c j) (y c j)
      rw [sub_add_cancel] at this
      linarith [(hs c j).2.1, (hs c j).2.2]
    have hrate : rates (R := R) N a c0 = 1 / (m : R) := by unfold rates; rw [tally_eq]
    have hup : ∀ j, fin ((s.scaleCentroid (rates N a c0) c0 (data r)).means c0 j) ∧
        |val ((s.scaleCentroid (rates N a c0) c0 (data r)).means c0 j) -
          (val (s.means c0 j) + 1 / (m : ℝ) * (val (data r j) - val (s.means c0 j)))| ≤ δ := by
      intro j
      have := update_double hI h1 (show 0 < m by omega) hcN hB1 hB2 ⟨(hs c0 j).1, hbox c0 j⟩
        ⟨(hdata r hr j).1, (hdata r hr j).2.trans hYB⟩
      rw [← hδ] at this
      unfold Clusters.scaleCentroid
      dsimp only
      rw [Function.update_self, hrate]
      exact this
    have hoth : ∀ c, c ≠ c0 → (s.scaleCentroid (rates N a c0) c0 (data r)).means c = s.means c := by
      intro c hc
      unfold Clusters.scaleCentroid
      dsimp only
      rw [Function.update_of_ne hc]
    set s1 := s.scaleCentroid (rates N a c0) c0 (data r) with hs1
    have hstep : ∀ j, |val (s1.means c0 j) - (y c0 j + 1 / (m : ℝ) * (val (data r j) - y c0 j))| ≤
        |val (s.means c0 j) - y c0 j| + δ := by
      intro j
      have h2 := (hup j).2
      have e2 : val (s1.means c0 j) - (y c0 j + 1 / (m : ℝ) * (val (data r j) - y c0 j)) =
          (val (s1.means c0 j) - (val (s.means c0 j) + 1 / (m : ℝ) * (val (data r j) - val (s.means c0 j)))) +
            (1 - 1 / (m : ℝ)) * (val (s.means c0 j) - y c0 j) := by ring
      rw [e2]
      refine (abs_add_le _ _).trans ?_
      rw [abs_mul, abs_of_nonneg (by linarith : (0 : ℝ) ≤ 1 - 1 / (m : ℝ))]
      have := mul_le_mul_of_nonneg_right (by linarith : 1 - 1 / (m : ℝ) ≤ 1) (abs_nonneg (val (s.means c0 j) - y c0 j))
      linarith
    obtain ⟨s', e', h'⟩ := ih hl' s1
      (fun c j => if c = c0 then y c0 j + 1 / (m : ℝ) * (val (data r j) - y c0 j) else y c j) (e + δ) (by
        intro c j
        by_cases hc : c = c0
        · subst hc
          simp only [if_true]
          refine ⟨(hup j).1, (hstep j).trans (by linarith [(hs c j).2.1]), ?_⟩
          have e2 : y c j + 1 / (m : ℝ) * (val (data r j) - y c j) =
            (1 - 1 / (m : ℝ)) * y c j + 1 / (m : ℝ) * val (data r j) := by ring
          rw [e2]
          refine (abs_add_le _ _).trans ?_
          rw [abs_mul, abs_mul, abs_of_nonneg hη0, abs_of_nonneg (by linarith : (0 : ℝ) ≤ 1 - 1 / (m : ℝ))]
          have h3 := mul_le_mul_of_nonneg_left (hs c j).2.2 (by linarith : (0 : ℝ) ≤ 1 - 1 / (m : ℝ))
          have h4 := mul_le_mul_of_nonneg_left (hdata r hr j).2 hη0
          linarith
        · simp only [if_neg hc]
          rw [hoth c hc]
          exact ⟨(hs c j).1, by linarith [(hs c j).2.1], (hs c j).2.2⟩) (by linarith)
    refine ⟨s', ?_, fun c j => ⟨(h' c j).1, ?_⟩⟩
    · unfold finalizeRows
      rw [hc0]
      exact e'
    · have h3 := (h' c j).2
      by_cases hc : c = c0
      · subst hc
        have em : movers a c (r :: l) = r :: movers a c l := by
          unfold movers
          rw [List.filter_cons, if_pos (by simpa using hc0)]
        rw [em, List.map_cons, towards_cons, List.length_cons]
        simp only [if_true] at h3
        rw [← hm] at h3 ⊢
        refine h3.trans ?_
        push_cast
        linarith [hstep j]
      · have em : movers a c (r :: l) = movers a c l := by
          unfold movers
          rw [List.filter_cons, if_neg]
          rw [hc0]
          simpa using fun h => hc h.symm
        simp only [if_neg hc] at h3
        rw [hoth c hc] at h3
        rw [em]
        exact h3

end Double

end Knor.MiniBatch
