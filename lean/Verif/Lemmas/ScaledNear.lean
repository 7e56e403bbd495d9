import Verif.Lemmas.ScaledDriver
import Verif.Lemmas.MiniBatchNear
import Verif.Props.DoubleDriver
import Verif.Spec.NearScaled

/-! # Lemmas about scaling on doubles -/

namespace Knor.Skmeans

open Knor Knor.Par Knor.Partition Knor.Kmeans Knor.Spec

variable {R : Type _} {n : Nat} {fin : R → Prop} {val : R → ℝ}

/-- Running minimum of finite numbers. -/
theorem foldl_min_val [LT R] [DecidableLT R] (hlt : ∀ x y, fin x → fin y → (x < y ↔ val x < val y)) {ι : Type _}
    (f : ι → R) (l : List ι) (a : R) (ha : fin a) (hf : ∀ i ∈ l, fin (f i)) :
    let m := l.foldl (fun g i => if f i < g then f i else g) a
    fin m ∧ val m ≤ val a ∧ (∀ i ∈ l, val m ≤ val (f i)) ∧ (m = a ∨ ∃ i ∈ l, m = f i) := by
  induction l generalizing a with
  | nil => simp [ha]
  | cons i l ih =>
    simp only [List.foldl_cons, List.mem_cons]
    have hi := hf i (by simp)
    have hl : ∀ i ∈ l, fin (f i) := fun x hx => hf x (List.mem_cons_of_mem _ hx)
    by_cases h : f i < a
    · rw [if_pos h]
      obtain ⟨h0, h1, h2, h3⟩ := ih (f i) hi hl
      have hv := (hlt _ _ hi ha).1 h
      refine ⟨h0, h1.trans hv.le, ?_, ?_⟩
      · rintro x (rfl | hx)
        · exact h1
        · exact h2 x hx
      · rcases h3 with h3 | ⟨x, hx, h3⟩
        · exact Or.inr ⟨i, Or.inl rfl, h3⟩
        · exact Or.inr ⟨x, Or.inr hx, h3⟩
    · rw [if_neg h]
      obtain ⟨h0, h1, h2, h3⟩ := ih a ha hl
      have hv : val a ≤ val (f i) := not_lt.1 fun h' => h ((hlt _ _ hi ha).2 h')
      refine ⟨h0, h1, ?_, ?_⟩
      · rintro x (rfl | hx)
        · exact h1.trans hv
        · exact h2 x hx
      · rcases h3 with h3 | ⟨x, hx, h3⟩
        · exact Or.inl h3
        · exact Or.inr ⟨x, Or.inr hx, h3⟩

/-- Running maximum of finite numbers. -/
theorem foldl_max_val [LT R] [DecidableLT R] (hlt : ∀ x y, fin x → fin y → (x < y ↔ val x < val y)) {ι : Type _}
    (f : ι → R) (l : List ι) (a : R) (ha : fin a) (hf : ∀ i ∈ l, fin (f i)) :
    let m := l.foldl (fun g i => if g < f i then f i else g) a
    fin m ∧ val a ≤ val m ∧ (∀ i ∈ l, val (f i) ≤ val m) ∧ (m = a ∨ ∃ i ∈ l, m = f i) := by
  induction l generalizing a with
  | nil => simp [ha]
  | cons i l ih =>
    simp only [List.foldl_cons, List.mem_cons]
    have hi := hf i (by simp)
    have hl : ∀ i ∈ l, fin (f i) := fun x hx => hf x (List.mem_cons_of_mem _ hx)
    by_cases h : a < f i
    · rw [if_pos h]
      obtain ⟨h0, h1, h2, h3⟩ := ih (f i) hi hl
      have hv := (hlt _ _ ha hi).1 h
      refine ⟨h0, hv.le.trans h1, ?_, ?_⟩
      · rintro x (rfl | hx)
        · exact h1
        · exact h2 x hx
      · rcases h3 with h3 | ⟨x, hx, h3⟩
        · exact Or.inr ⟨i, Or.inl rfl, h3⟩
        · exact Or.inr ⟨x, Or.inr hx, h3⟩
    · rw [if_neg h]
      obtain ⟨h0, h1, h2, h3⟩ := ih a ha hl
      have hv : val (f i) ≤ val a := not_lt.1 fun h' => h ((hlt _ _ ha hi).2 h')
      refine ⟨h0, h1, ?_, ?_⟩
      · rintro x (rfl | hx)
        · exact hv.trans h1
        · exact h2 x hx
      · rcases h3 with h3 | ⟨x, hx, h3⟩
        · exact Or.inl h3
        · exact Or.inr ⟨x, Or.inr hx, h3⟩

/-- The whole-column bounds that are computed from finite numbers. -/
structure GoodVals (fin : R → Prop) (val : R → ℝ) (big tiny : R) (N : Nat) (data : Nat → Row R n)
    (g : Bounds R n) : Prop where
  lo : ∀ j, fin (g j).1 ∧ (∀ r, r < N → val (g j).1 ≤ val (data r j)) ∧
    ((g j).1 = big ∨ ∃ r, r < N ∧ (g j).1 = data r j)
  hi : ∀ j, fin (g j).2 ∧ val tiny ≤ val (g j).2 ∧ (∀ r, r < N → val (data r j) ≤ val (g j).2) ∧
    ((g j).2 = tiny ∨ ∃ r, r < N ∧ (g j).2 = data r j)

theorem foldl_bounds_any [LT R] [DecidableLT R] (data : Nat → Row R n) (l : List Nat) (b : Bounds R n) (j : Fin n) :
    l.foldl (fun (a : Bounds R n) r j => boundsEntry (a j) (Fl.fin (data r j))) b j =
      (l.foldl (fun g r => if data r j < g then data r j else g) (b j).1,
       l.foldl (fun g r => if g < data r j then data r j else g) (b j).2) := by
  induction l generalizing b with
  | nil => rfl
  | cons r l ih => simp only [List.foldl_cons]; rw [ih]; rfl

theorem reduceBounds_any [LT R] [DecidableLT R] (l : List Nat) (b : Nat → Bounds R n) (g : Bounds R n) (j : Fin n) :
    l.foldl (fun g t j =>
      (if (b t j).1 < (g j).1 then (b t j).1 else (g j).1,
       if (g j).2 < (b t j).2 then (b t j).2 else (g j).2)) g j =
      (l.foldl (fun x t => if (b t j).1 < x then (b t j).1 else x) (g j).1,
       l.foldl (fun x t => if x < (b t j).2 then (b t j).2 else x) (g j).2) := by
  induction l generalizing g with
  | nil => rfl
  | cons t l ih => simp only [List.foldl_cons]; rw [ih]

/-- The two phases on finite numbers. -/
theorem preprocess_vals [Zero R] [Sub R] [Div R] [DecidableEq R] [LT R] [DecidableLT R]
    (hlt : ∀ x y, fin x → fin y → (x < y ↔ val x < val y)) {big tiny : R} (hb : fin big) (ht : fin tiny)
    {data : Nat → Row R n} {N nt : Nat} {s1 s2 : List Nat} (hn : 0 < N) (hnt : 0 < nt) (hlN : N < 4294967296)
    (hfin : ∀ r, r < N → ∀ j, fin (data r j))
    (hc1 : Complete (effThreads nt N) (threadRows N nt) s1)
    (hc2 : Complete (effThreads nt N) (threadRows N nt) s2) :
    ∃ rows g, preprocess big tiny data N nt s1 s2 = .ok rows ∧ GoodVals fin val big tiny N data g ∧
      ∀ r, r < N → ∀ j, rows r j = scaleEntry (g j).1 (g j).2 (.fin (data r j)) := by
  have hsp := split_threadRows hn hnt hlN
  obtain ⟨p, hp, hpm, hpo, hpa⟩ := run_det (f := boundsRow (R := R) (n := n))
    (g := fun _ x => .ok x) (h := fun _ x _ b j => boundsEntry (b j) (x j))
    (fun _ _ _ => rfl)
    (s0 := { mem := fun r j => .fin (data r j), acc := fun _ => initBounds big tiny
             todo := threadRows N nt }) hsp hc1 (fun r _ => ⟨_, rfl⟩)
  have hmem : p.mem = fun r j => .fin (data r j) := by
    funext r
    by_cases hr : r < N
    · have := hpm r hr
      simp only [Except.ok.injEq] at this
      exact this.symm
    · exact hpo r (by omega)
  obtain ⟨q, hq, hqm, hqo, -⟩ := run_det
    (f := normRow (reduceBounds big tiny (effThreads nt N) p.acc))
    (g := fun _ x => .ok fun j => scaleEntry (reduceBounds big tiny (effThreads nt N) p.acc j).1
      (reduceBounds big tiny (effThreads nt N) p.acc j).2 (x j)) (h := fun _ _ _ u => u)
    (fun _ _ _ => rfl)
    (s0 := { mem := p.mem, acc := fun _ => (), todo := threadRows N nt }) hsp hc2
    (fun r _ => ⟨_, rfl⟩)
  refine ⟨q.mem, reduceBounds big tiny (effThreads nt N) p.acc, ?_, ?_, ?_⟩
  · simp [preprocess, hp, hq]
  · have hacc : ∀ t j, p.acc t j =
        ((threadRows N nt t).foldl (fun g r => if data r j < g then data r j else g) big,
         (threadRows N nt t).foldl (fun g r => if g < data r j then data r j else g) tiny) := by
      intro t j
      rw [hpa t]
      simp only
      rw [foldl_bounds_any data]
      rfl
    have hmemi : ∀ r, r < N ↔ ∃ t, t < effThreads nt N ∧ r ∈ threadRows N nt t := by
      intro r
      rw [← List.mem_range, ← hsp.perm.mem_iff, List.mem_flatMap]
      simp [List.mem_range]
    have hf : ∀ t, t < effThreads nt N → ∀ j, ∀ r ∈ threadRows N nt t, fin (data r j) := fun t ht j r hr =>
      hfin r ((hmemi r).2 ⟨t, ht, hr⟩) j
    have hlo : ∀ t, t < effThreads nt N → ∀ j, _ := fun t ht' j =>
      foldl_min_val hlt (fun r => data r j) (threadRows N nt t) big hb (hf t ht' j)
    have hhi : ∀ t, t < effThreads nt N → ∀ j, _ := fun t ht' j =>
      foldl_max_val hlt (fun r => data r j) (threadRows N nt t) tiny ht (hf t ht' j)
    refine ⟨fun j => ?_, fun j => ?_⟩
    · unfold reduceBounds
      rw [reduceBounds_any]
      obtain ⟨h0, h1, h2, h3⟩ := foldl_min_val hlt (fun t => (p.acc t j).1) (List.range (effThreads nt N))
        ((initBounds big tiny : Bounds R n) j).1 hb fun t htt => by
          rw [hacc t j]; exact (hlo t (List.mem_range.1 htt) j).1
      refine ⟨h0, ?_, ?_⟩
      · intro r hr
        obtain ⟨t, ht', hrt⟩ := (hmemi r).1 hr
        refine le_trans (h2 t (List.mem_range.2 ht')) ?_
        rw [hacc t j]
        exact (hlo t ht' j).2.2.1 r hrt
      · rcases h3 with h3 | ⟨t, ht', h3⟩
        · exact Or.inl h3
        · have hpt : (p.acc t j).1 = _ := congrArg Prod.fst (hacc t j)
          rcases (hlo t (List.mem_range.1 ht') j).2.2.2 with h4 | ⟨r, hr, h4⟩
          · left; exact h3.trans (hpt.trans h4)
          · right
            exact ⟨r, (hmemi r).2 ⟨t, List.mem_range.1 ht', hr⟩, h3.trans (hpt.trans h4)⟩
    · unfold reduceBounds
      rw [reduceBounds_any]
      obtain ⟨h0, h1, h2, h3⟩ := foldl_max_val hlt (fun t => (p.acc t j).2) (List.range (effThreads nt N))
        ((initBounds big tiny : Bounds R n) j).2 ht fun t htt => by
          rw [hacc t j]; exact (hhi t (List.mem_range.1 htt) j).1
      refine ⟨h0, h1, ?_, ?_⟩
      · intro r hr
        obtain ⟨t, ht', hrt⟩ := (hmemi r).1 hr
        refine le_trans ?_ (h2 t (List.mem_range.2 ht'))
        rw [hacc t j]
        exact (hhi t ht' j).2.2.1 r hrt
      · rcases h3 with h3 | ⟨t, ht', h3⟩
        · exact Or.inl h3
        · have hpt : (p.acc t j).2 = _ := congrArg Prod.snd (hacc t j)
          rcases (hhi t (List.mem_range.1 ht') j).2.2.2 with h4 | ⟨r, hr, h4⟩
          · left; exact h3.trans (hpt.trans h4)
          · right
            exact ⟨r, (hmemi r).2 ⟨t, List.mem_range.1 ht', hr⟩, h3.trans (hpt.trans h4)⟩
  · intro r hr j
    have := hqm r hr
    simp only [Except.ok.injEq] at this
    rw [← this, hmem]

/-- Two rounded differences and their rounded quotient. -/
theorem quot_near {a b B s1 s2 q u w η : ℝ} (ha : 0 ≤ a) (hB : 0 < B) (hu0 : 0 ≤ u) (hu : u ≤ 1 / 8) (hw0 : 0 ≤ w)
    (hw : w ≤ u) (hb1 : B ≤ b) (hb2 : b ≤ (1 + w) * B) (h1 : |s1 - a| ≤ u * a) (h2 : |s2 - b| ≤ u * b)
    (h3 : |q - s1 / s2| ≤ u * (s1 / s2) + η) : |q - a / B| ≤ 4 * u * (a / B) + η := by
  obtain ⟨p1, p2⟩ := abs_le.1 h1
  obtain ⟨r1, r2⟩ := abs_le.1 h2
  obtain ⟨v1, v2⟩ := abs_le.1 h3
  have hs1 : 0 ≤ s1 := by nlinarith
  have hb0 : 0 < b := hB.trans_le hb1
  have hs2 : (1 - u) * B ≤ s2 := by nlinarith
  have hs2' : s2 ≤ (1 + u) * ((1 + w) * B) := by nlinarith
  have hs2p : 0 < s2 := lt_of_lt_of_le (by nlinarith) hs2
  obtain ⟨A, hA⟩ : ∃ A, A = a / B := ⟨_, rfl⟩
  obtain ⟨t, ht⟩ : ∃ t, t = s1 / s2 := ⟨_, rfl⟩
  rw [← hA]
  rw [← ht] at v1 v2
  have hA0 : 0 ≤ A := by rw [hA]; positivity
  have ht0 : 0 ≤ t := by rw [ht]; positivity
  have ea : a = A * B := by rw [hA]; field_simp
  have et : t * s2 = s1 := by rw [ht]; field_simp
  have k1 : t * (1 - u) ≤ (1 + u) * A := by
    have e1 : t * ((1 - u) * B) ≤ t * s2 := mul_le_mul_of_nonneg_left hs2 ht0
    have e2 : t * (1 - u) * B ≤ (1 + u) * A * B := by
      rw [et] at e1
      calc t * (1 - u) * B = t * ((1 - u) * B) := by ring
        _ ≤ s1 := e1
        _ ≤ (1 + u) * a := by linarith
        _ = _ := by rw [ea]; ring
    exact le_of_mul_le_mul_right e2 hB
  have k2 : (1 - u) * A ≤ t * ((1 + u) * (1 + w)) := by
    have e1 : t * s2 ≤ t * ((1 + u) * ((1 + w) * B)) := mul_le_mul_of_nonneg_left hs2' ht0
    have e2 : (1 - u) * A * B ≤ t * ((1 + u) * (1 + w)) * B := by
      rw [et] at e1
      calc (1 - u) * A * B = (1 - u) * a := by rw [ea]; ring
        _ ≤ s1 := by linarith
        _ ≤ _ := e1
        _ = _ := by ring
    exact le_of_mul_le_mul_right e2 hB
  have hu1 : 0 < 1 - u := by linarith
  have k3 : (1 + u) * t ≤ (1 + 4 * u) * A := by
    have e1 : (1 - u) * ((1 + u) * t) ≤ (1 - u) * ((1 + 4 * u) * A) := by
      calc (1 - u) * ((1 + u) * t) = (1 + u) * (t * (1 - u)) := by ring
        _ ≤ (1 + u) * ((1 + u) * A) := mul_le_mul_of_nonneg_left k1 (by linarith)
        _ = ((1 + u) * (1 + u)) * A := by ring
        _ ≤ ((1 - u) * (1 + 4 * u)) * A := mul_le_mul_of_nonneg_right (by nlinarith) hA0
        _ = _ := by ring
    exact le_of_mul_le_mul_left e1 hu1
  have k4 : (1 - 4 * u) * A ≤ (1 - u) * t := by
    have hp : 0 < (1 + u) * (1 + w) := by positivity
    have e1 : ((1 + u) * (1 + w)) * ((1 - 4 * u) * A) ≤ ((1 + u) * (1 + w)) * ((1 - u) * t) := by
      calc ((1 + u) * (1 + w)) * ((1 - 4 * u) * A) = ((1 + u) * (1 + w) * (1 - 4 * u)) * A := by ring
        _ ≤ ((1 - u) * (1 - u)) * A := mul_le_mul_of_nonneg_right (by nlinarith [mul_nonneg hu0 hw0, mul_nonneg hu0 hu0, mul_nonneg (mul_nonneg hu0 hu0) hw0]) hA0
        _ = (1 - u) * ((1 - u) * A) := by ring
        _ ≤ (1 - u) * (t * ((1 + u) * (1 + w))) := mul_le_mul_of_nonneg_left k2 hu1.le
        _ = _ := by ring
    exact le_of_mul_le_mul_left e1 hp
  rw [abs_le]
  constructor <;> linarith

end Knor.Skmeans

namespace Knor.Driver

open Knor Knor.Spec Knor.Io Knor.Partition Knor.Par Knor.Kmeans Knor.Init Knor.NearLloyd Knor.Distr

variable {R S B : Type _} {k n : Nat} [Zero R] [Add R] [Sub R] [Mul R] [Div R] [IntCast R] [NatCast R] [LT R] [LE R]
  {fin : R → Prop} {val : R → ℝ} {sqrt abs' : R → R} {big tiny : R}

/-- The rows after scaling. -/
theorem scaled_near [DecidableEq R] [DecidableLT R] (hI : IeeeDouble fin val sqrt abs')
    (hbig : fin big ∧ val big = maxDouble) (htiny : fin tiny ∧ val tiny = 2 ^ (-1022 : Int))
    (data data' : Nat → Row R n) (N nt : Nat) (s1 s2 : List Nat) (hdata : ∀ r, r < N → data r = data' r)
    (hn : 0 < N) (hnt : 0 < nt) (hlt : N < 4294967296)
    (hc1 : Complete (effThreads nt N) (threadRows N nt) s1) (hc2 : Complete (effThreads nt N) (threadRows N nt) s2)
    (hm : ∀ r, r < N → ∀ j, fin (data' r j) ∧ |val (data' r j)| ≤ 2 ^ (1022 : Int))
    (hne : ∀ j, ∃ r q, r < N ∧ q < N ∧ val (data' r j) < val (data' q j) ∧
      (2 ^ (-1022 : Int) ≤ val (data' q j) ∨ 0 ≤ val (data' q j) ∧ val (data' r j) ≤ -2 ^ (-960 : Int))) :
    ∃ rows, Skmeans.preprocess big tiny data N nt s1 s2 = .ok rows ∧
      ((List.range N).all (fun r => (List.finRange n).all fun j => decide (rows r j ≠ .nan)) = true) ∧
      NearScaled fin val N data' (fun r j => (rows r j).val) := by
  obtain ⟨rows, g, h1, hg, h2⟩ := Skmeans.preprocess_vals (fin := fin) (val := val) hI.lt hbig.1 htiny.1
    (data := data) hn hnt hlt (fun r hr j => by rw [hdata r hr]; exact (hm r hr j).1) hc1 hc2
  have hp0 : (0 : ℝ) < 2 ^ (-1022 : Int) := p_pos _
  have key : ∀ j, ∃ lo hi, IsColMin N (fun r j => val (data' r j)) j lo ∧
      IsColMax N (fun r j => val (data' r j)) j hi ∧ lo < hi ∧ val (g j).1 = lo ∧ hi ≤ val (g j).2 ∧
      val (g j).2 - lo ≤ (1 + 2 ^ (-62 : Int)) * (hi - lo) ∧
      (2 ^ (-1022 : Int) < hi → ∃ q, q < N ∧ (g j).2 = data' q j ∧ val (data' q j) = hi) ∧
      fin (g j).1 ∧ fin (g j).2 ∧ |lo| ≤ 2 ^ (1022 : Int) ∧ |val (g j).2| ≤ 2 ^ (1022 : Int) := by
    intro j
    obtain ⟨f1, l2, l3⟩ := hg.lo j
    obtain ⟨f2, u1, u2, u3⟩ := hg.hi j
    obtain ⟨r, q, hr, hq, hrq, hcase⟩ := hne j
    have l2' : ∀ r, r < N → val (g j).1 ≤ val (data' r j) := fun r hr => by rw [← hdata r hr]; exact l2 r hr
    have u2' : ∀ r, r < N → val (data' r j) ≤ val (g j).2 := fun r hr => by rw [← hdata r hr]; exact u2 r hr
    have hmin : IsColMin N (fun r j => val (data' r j)) j (val (g j).1) := by
      refine ⟨l2', ?_⟩
      rcases l3 with h | ⟨r', hr', h⟩
      · exfalso
        have a1 := l2' r hr
        rw [h, hbig.2] at a1
        have a2 := (le_abs_self _).trans (hm r hr j).2
        have a3 : (2 : ℝ) ^ (1022 : Int) < 2 ^ (1023 : Int) := zpow_lt_zpow_right₀ (by norm_num) (by norm_num)
        exact absurd (a1.trans a2) (not_le.2 (a3.trans_le p_le_max))
      · exact ⟨r', hr', by rw [h, hdata r' hr']⟩
    obtain ⟨hi, hmax⟩ : ∃ hi, IsColMax N (fun r j => val (data' r j)) j hi := by
      obtain ⟨p, hp, h⟩ := Finset.exists_max_image (Finset.range N) (fun r => val (data' r j)) ⟨0, by simpa using hn⟩
      exact ⟨_, fun r hr => h r (Finset.mem_range.2 hr), p, Finset.mem_range.1 hp, rfl⟩
    obtain ⟨p, hp, ep⟩ := hmax.2
    have hqhi : val (data' q j) ≤ hi := hmax.1 q hq
    have hlor : val (g j).1 ≤ val (data' r j) := l2' r hr
    have hlt' : val (g j).1 < hi := by linarith
    have hhig : hi ≤ val (g j).2 := by have := u2' p hp; dsimp only at ep; rw [ep] at this; exact this
    have heq : 2 ^ (-1022 : Int) < hi → ∃ q, q < N ∧ (g j).2 = data' q j ∧ val (data' q j) = hi := by
      intro h
      rcases u3 with h' | ⟨r', hr', h'⟩
      · rw [h', htiny.2] at hhig
        exact absurd hhig (not_le.2 h)
      · have e' : (g j).2 = data' r' j := by rw [h', hdata r' hr']
        refine ⟨r', hr', e', le_antisymm (hmax.1 r' hr') ?_⟩
        rw [← e']
        exact hhig
    have hle : val (g j).2 ≤ max hi (2 ^ (-1022 : Int)) := by
      rcases u3 with h' | ⟨r', hr', h'⟩
      · rw [h', htiny.2]; exact le_max_right _ _
      · rw [h', hdata r' hr']; exact (hmax.1 r' hr').trans (le_max_left _ _)
    have hlo2 : |val (g j).1| ≤ 2 ^ (1022 : Int) := by
      obtain ⟨p', hp', e'⟩ := hmin.2
      dsimp only at e'
      rw [← e']; exact (hm p' hp' j).2
    have hhi2 : |hi| ≤ 2 ^ (1022 : Int) := by
      dsimp only at ep
      rw [← ep]; exact (hm p hp j).2
    refine ⟨val (g j).1, hi, hmin, hmax, hlt', rfl, hhig, ?_, heq, f1, f2, hlo2, ?_⟩
    · have hw : (0 : ℝ) < 2 ^ (-62 : Int) := p_pos _
      have hd : 0 < hi - val (g j).1 := sub_pos.2 hlt'
      have hwd := mul_pos hw hd
      rcases hcase with h | ⟨h, h'⟩
      · have : max hi ((2 : ℝ) ^ (-1022 : Int)) = hi := max_eq_left (h.trans hqhi)
        rw [this] at hle
        rw [add_mul, one_mul]
        linarith
      · rw [add_mul, one_mul]
        rcases le_total ((2 : ℝ) ^ (-1022 : Int)) hi with h4 | h4
        · rw [max_eq_left h4] at hle
          linarith
        · rw [max_eq_right h4] at hle
          have h5 : (2 : ℝ) ^ (-960 : Int) ≤ hi - val (g j).1 := by linarith
          have h6 := mul_le_mul_of_nonneg_left h5 hw.le
          rw [p_mul] at h6
          have h7 : (-62 : Int) + -960 = -1022 := by norm_num
          rw [h7] at h6
          linarith
    · rw [abs_le]
      have h8 : (2 : ℝ) ^ (-1022 : Int) ≤ 2 ^ (1022 : Int) := p_le (by norm_num)
      have h9 := abs_le.1 hhi2
      exact ⟨h9.1.trans hhig, hle.trans (max_le h9.2 h8)⟩
  have hfinrow : ∀ j, ∃ lo hi, IsColMin N (fun r j => val (data' r j)) j lo ∧
      IsColMax N (fun r j => val (data' r j)) j hi ∧ lo < hi ∧
      (∀ r, r < N → ∃ x, rows r j = .fin x ∧ fin x ∧ 0 ≤ val x ∧
        |val x - (val (data' r j) - lo) / (hi - lo)| ≤
          2 ^ (-51 : Int) * ((val (data' r j) - lo) / (hi - lo)) + 2 ^ (-1075 : Int) ∧
        (val (data' r j) = lo → val x = 0)) ∧
      (2 ^ (-1022 : Int) < hi → ∃ r x, r < N ∧ rows r j = .fin x ∧ val (data' r j) = hi ∧ val x = 1) := by
    intro j
    obtain ⟨lo, hi, hmin, hmax, hlh, e1, hle, hle2, heq, f1, f2, b1, b2⟩ := key j
    refine ⟨lo, hi, hmin, hmax, hlh, ?_⟩
    have hA := hI.rounds
    have h1023 : (2 : ℝ) ^ (1022 : Int) + 2 ^ (1022 : Int) ≤ maxDouble := by
      refine le_trans (le_of_eq ?_) p_le_max
      rw [show (1023 : Int) = 1 + 1022 by norm_num, zpow_add₀ (by norm_num) 1 1022, zpow_one]
      ring
    have hsub : ∀ x, fin x → |val x| ≤ 2 ^ (1022 : Int) → |val x - val (g j).1| ≤ maxDouble := by
      intro x _ hx
      rw [e1]
      exact (abs_sub _ _).trans ((add_le_add hx b1).trans h1023)
    have hd2 := hA.sub (g j).2 (g j).1 f2 f1 (hsub _ f2 b2)
    have hbpos : 0 < val (g j).2 - lo := by linarith
    rw [e1, abs_of_pos hbpos] at hd2
    have hs2 : 0 < val ((g j).2 - (g j).1) := by
      have h53 : (2 : ℝ) ^ (-53 : Int) ≤ 1 / 8 := by norm_num
      have := (abs_le.1 hd2.2).1
      have h3 : (2 : ℝ) ^ (-53 : Int) * (val (g j).2 - lo) ≤ 1 / 8 * (val (g j).2 - lo) :=
        mul_le_mul_of_nonneg_right h53 hbpos.le
      clear hd2
      generalize (2 : ℝ) ^ (-53 : Int) * (val (g j).2 - lo) = z at *
      clear h53 hle2 hA
      linarith
    have hne0 : (g j).2 - (g j).1 ≠ 0 := by
      intro h
      rw [h, hI.zero.2] at hs2
      exact lt_irrefl _ hs2
    have hrow : ∀ r, r < N → rows r j = .fin ((data' r j - (g j).1) / ((g j).2 - (g j).1)) := by
      intro r hr
      rw [h2 r hr j, hdata r hr]
      simp [Skmeans.scaleEntry, hne0]
    have hd1 : ∀ r, r < N → fin (data' r j - (g j).1) ∧
        |val (data' r j - (g j).1) - (val (data' r j) - lo)| ≤ 2 ^ (-53 : Int) * (val (data' r j) - lo) ∧
        0 ≤ val (data' r j - (g j).1) := by
      intro r hr
      have h0 : 0 ≤ val (data' r j) - lo := sub_nonneg.2 (hmin.1 r hr)
      have h3 := hA.sub _ _ (hm r hr j).1 f1 (hsub _ (hm r hr j).1 (hm r hr j).2)
      have h4 := (hI.sub _ _ (hm r hr j).1 f1 (hsub _ (hm r hr j).1 (hm r hr j).2)).2
      rw [e1] at h3 h4
      rw [abs_of_nonneg h0] at h3
      exact ⟨h3.1, h3.2, nearest_nonneg h0 h4⟩
    have hquot : ∀ r, r < N →
        |val (data' r j - (g j).1) / val ((g j).2 - (g j).1)| ≤ maxDouble := by
      intro r hr
      obtain ⟨w1, w2, w3⟩ := hd1 r hr
      rw [abs_of_nonneg (div_nonneg w3 hs2.le), div_le_iff₀ hs2]
      have h53 : (2 : ℝ) ^ (-53 : Int) ≤ 1 / 8 := by norm_num
      have h0 : 0 ≤ val (data' r j) - lo := sub_nonneg.2 (hmin.1 r hr)
      have h3 := (abs_le.1 w2).2
      have h4 := (abs_le.1 hd2.2).1
      have h5 : (2 : ℝ) ^ (-53 : Int) * (val (g j).2 - lo) ≤ 1 / 8 * (val (g j).2 - lo) :=
        mul_le_mul_of_nonneg_right h53 hbpos.le
      have h6 : (2 : ℝ) ^ (-53 : Int) * (val (data' r j) - lo) ≤ 1 / 8 * (val (data' r j) - lo) :=
        mul_le_mul_of_nonneg_right h53 h0
      have h7 : val (data' r j) ≤ val (g j).2 := (hmax.1 r hr).trans hle
      have h8 : (2 : ℝ) ≤ maxDouble := by
        refine le_trans ?_ p_le_max
        have := p_le (show (1 : Int) ≤ 1023 by norm_num)
        rwa [zpow_one] at this
      have h9 : 2 * val ((g j).2 - (g j).1) ≤ maxDouble * val ((g j).2 - (g j).1) :=
        mul_le_mul_of_nonneg_right h8 hs2.le
      clear hd2 w2 h53 hle2 hA hd1
      generalize (2 : ℝ) ^ (-53 : Int) * (val (g j).2 - lo) = z at *
      generalize (2 : ℝ) ^ (-53 : Int) * (val (data' r j) - lo) = z' at *
      linarith
    refine ⟨fun r hr => ⟨_, hrow r hr, ?_⟩, fun h => ?_⟩
    · obtain ⟨w1, w2, w3⟩ := hd1 r hr
      have hv := hA.div _ _ w1 hd2.1 hs2.ne' (hquot r hr)
      have hv' := (hI.div _ _ w1 hd2.1 hs2.ne' (hquot r hr)).2
      have hq0 := div_nonneg w3 hs2.le
      rw [abs_of_nonneg hq0] at hv
      refine ⟨hv.1, nearest_nonneg hq0 hv', ?_, fun h => ?_⟩
      · have := Skmeans.quot_near (w := 2 ^ (-62 : Int)) (sub_nonneg.2 (hmin.1 r hr)) (sub_pos.2 hlh) (p_pos (-53)).le
          (by norm_num) (p_pos (-62)).le (p_le (by norm_num)) (sub_le_sub_right hle lo) hle2 w2 hd2.2 hv.2
        refine this.trans (le_of_eq ?_)
        rw [show (-51 : Int) = 2 + -53 by norm_num, zpow_add₀ (by norm_num) 2 (-53)]
        norm_num
      · have h0 : val (data' r j - (g j).1) = 0 := by
          rw [h, sub_self, mul_zero, sub_zero] at w2
          exact abs_nonpos_iff.1 w2
        rw [h0, zero_div] at hv'
        exact nearest_of_double hv' isDouble_zero
    · obtain ⟨q, hq, eg, ev⟩ := heq h
      refine ⟨q, _, hq, hrow q hq, ev, ?_⟩
      have hv' := (hI.div _ _ (hd1 q hq).1 hd2.1 hs2.ne' (hquot q hq)).2
      rw [← eg, div_self hs2.ne'] at hv'
      rw [← eg]
      exact nearest_of_double hv' MiniBatch.isDouble_one
  refine ⟨rows, h1, ?_, fun j => ?_⟩
  · simp only [List.all_eq_true, List.mem_range, List.mem_finRange, decide_eq_true_eq, forall_true_left]
    intro r hr j
    obtain ⟨lo, hi, _, _, _, h, _⟩ := hfinrow j
    obtain ⟨x, e, _⟩ := h r hr
    rw [e]
    simp
  · obtain ⟨lo, hi, w1, w2, w3, w4, w5⟩ := hfinrow j
    refine ⟨lo, hi, w1, w2, w3, fun r hr => ?_, fun h => ?_⟩
    · obtain ⟨x, e, h⟩ := w4 r hr
      dsimp only
      rw [e]
      exact h
    · obtain ⟨r, x, hr, e, h⟩ := w5 h
      refine ⟨r, hr, h.1, ?_⟩
      dsimp only
      rw [e]
      exact h.2

omit [Zero R] [Add R] [Sub R] [Mul R] [Div R] [IntCast R] [NatCast R] [LT R] [LE R] in
/-- Scaled entries are at most 2. -/
theorem nearScaled_le_two {N : Nat} {data scaled : Nat → Row R n} (h : NearScaled fin val N data scaled) {r : Nat}
    (hr : r < N) (j : Fin n) : fin (scaled r j) ∧ |val (scaled r j)| ≤ 2 := by
  obtain ⟨lo, hi, hmin, hmax, hlh, w, _⟩ := h j
  obtain ⟨w1, w2, w3, _⟩ := w r hr
  refine ⟨w1, ?_⟩
  have hd : 0 < hi - lo := sub_pos.2 hlh
  have h1 : (val (data r j) - lo) / (hi - lo) ≤ 1 := (div_le_one₀ hd).2 (sub_le_sub_right (hmax.1 r hr) _)
  have h2 : 0 ≤ (val (data r j) - lo) / (hi - lo) := div_nonneg (sub_nonneg.2 (hmin.1 r hr)) hd.le
  have h3 : (2 : ℝ) ^ (-51 : Int) * ((val (data r j) - lo) / (hi - lo)) ≤ 1 / 2 * 1 :=
    mul_le_mul (by norm_num) h1 h2 (by norm_num)
  have h4 : (2 : ℝ) ^ (-1075 : Int) ≤ 2 ^ (-1 : Int) := p_le (by norm_num)
  have h5 : (2 : ℝ) ^ (-1 : Int) = 1 / 2 := by norm_num
  rw [h5] at h4
  rw [abs_of_nonneg w2]
  have := (abs_le.1 w3).2
  generalize (2 : ℝ) ^ (-1075 : Int) = v at *
  linarith

/-- Construction, initialisation and loop on doubles. -/
theorem cluster_near [DecidableLT R] [DecidableLE R] (hI : IeeeDouble fin val sqrt abs')
    (hbig : fin big ∧ val big = maxDouble) (cosd : Row R n → Row R n → R) {met : Dist.Metric} (hcos : met ≠ .cos)
    (rng : Rng R S k) (data data' : Nat → Row R n) (N nt : Nat) (hdata : ∀ r, r < N → data r = data' r)
    (hk : 0 < k) (hn : 0 < N) (hnt : 0 < nt) (hlt : N < 4294967296) (hcol : n ≤ 4294967296)
    (hrows : ∀ r, r < N → InBox fin val (2 ^ (400 : Int)) (data' r)) (hrng : RngFin fin val rng N)
    (sched1 sched2 : Nat → List Nat) (hc1 : ∀ i, Complete (effThreads nt N) (threadRows N nt) (sched1 i))
    (hc2 : ∀ i, Complete (effThreads nt N) (threadRows N nt) (sched2 i))
    (it : InitT) (given : Option (Nat → Nat → R))
    (hgiven : ∀ g, givenCents (k := k) (n := n) given = some g → ∀ c, InBox fin val (2 ^ (400 : Int)) (g c))
    (tol : R) (maxIters : Nat) :
    ∃ cl s res, construct it (given.map fun g => rowsFrom g n 0 k) = .ok cl ∧
      runInit (anyDist sqrt abs' cosd met) big rng data N nt sched1 it cl = .ok s ∧
      Kmeans.run (anyDist sqrt abs' cosd met) big data N nt tol maxIters sched2 s = .ok res ∧
      NearDelivers fin val it met data' N (min nt N) rng (givenCents given) tol maxIters res := by
  have hT : min nt N = effThreads nt N := rfl
  rw [hT]
  obtain ⟨cl, s, e0, es, hb, hstart⟩ := runInit_near hI hbig cosd hcos rng data data' N nt hdata hk hn hnt hlt hcol hrows
    hrng sched1 hc1 it given hgiven _ _ rfl rfl
  refine ⟨cl, s, ?_⟩
  rcases Nat.eq_zero_or_pos maxIters with h0 | hpos
  · refine ⟨⟨0, s⟩, e0, es, ?_, s.cltrs.means, hstart, fun _ => ⟨rfl, rfl⟩, fun h => by omega⟩
    unfold Kmeans.run
    rw [if_neg (by omega)]
    unfold Kmeans.loop
    rw [if_neg (by omega)]
  · have hin : DoubleInput fin val big data N nt (fun (_ : Fin k) (_ : Fin n) => (0 : R)) :=
      ⟨hk, hn, hnt, hlt, hcol, hbig, fun r hr => by rw [hdata r hr]; exact hrows r hr, fun _ _ => by
        rw [hI.zero.2, abs_zero]; exact ⟨hI.zero.1, (p_pos _).le⟩⟩
    have hsz : Sizes fin val (2 ^ (-53 : Int)) (2 ^ (-1075 : Int)) maxDouble (2 ^ (400 : Int)) (2 ^ (402 : Int)) (2 ^ 53)
        N nt data :=
      DoubleInput.sizes (s0 := ⟨⟨fun _ _ => 0, fun _ => 0, fun _ => false⟩, fun _ => none, fun _ => 0, 0⟩) hin
    obtain ⟨res, er, h⟩ := run_near hI.rounds hk (dist_double hI hbig hcol cosd hcos).1 hsz hb hpos hc2 (tol := tol)
    refine ⟨res, e0, es, er, s.cltrs.means, hstart, fun h => by omega, fun _ => near_data hdata ?_⟩
    exact h.mono (metricDist_nonneg met) le_rfl le_rfl
      (pow_rounds (m := _) ((len_le hn hnt hlt).trans (by norm_num))).1

end Knor.Driver
