import Verif.Lemmas.RoundSums
import Verif.Spec.MachinePost

/-!
The post-processor in rounded arithmetic.
-/
open Finset
namespace DG

/-- bounded numbers: sums -/
theorem close_add {A : Arith} {κ κ' x y M : ℝ} {a b : A.K} (hu : A.u ≤ 1) (ha : A.Close κ a x) (hb : A.Close κ' b y) (hk : 0 ≤ κ) (hk' : 0 ≤ κ')
    (hx : |x + y| ≤ M) (hB : M + κ + κ' ≤ A.big) : A.Close (2 * (κ + κ') + M + 1) (a + b) (x + y) := by
  have hu0 := A.u_nonneg
  have h1 := ha.2
  have h2 := hb.2
  have e : |A.val a + A.val b - (x + y)| ≤ (κ + κ') * A.u := by
    have : A.val a + A.val b - (x + y) = (A.val a - x) + (A.val b - y) := by ring
    rw [this, add_mul]; exact (abs_add_le _ _).trans (add_le_add h1 h2)
  have s : |A.val a + A.val b| ≤ M + (κ + κ') * A.u := by
    have := abs_sub_abs_le_abs_sub (A.val a + A.val b) (x + y); linarith
  have s' : (κ + κ') * A.u ≤ κ + κ' := mul_le_of_le_one_right (by linarith) hu
  obtain ⟨f, r, -⟩ := A.add a b ha.1 hb.1 (by linarith)
  refine ⟨f, ?_⟩
  have t := abs_sub_le (A.val (a + b)) (A.val a + A.val b) (x + y)
  have m1 : A.u * |A.val a + A.val b| ≤ A.u * (M + κ + κ') := mul_le_mul_of_nonneg_left (by linarith) hu0
  nlinarith

theorem close_sub {A : Arith} {κ κ' x y M : ℝ} {a b : A.K} (hu : A.u ≤ 1) (ha : A.Close κ a x) (hb : A.Close κ' b y) (hk : 0 ≤ κ) (hk' : 0 ≤ κ')
    (hx : |x - y| ≤ M) (hB : M + κ + κ' ≤ A.big) : A.Close (2 * (κ + κ') + M + 1) (a - b) (x - y) := by
  have hu0 := A.u_nonneg
  have h1 := ha.2
  have h2 := hb.2
  have e : |A.val a - A.val b - (x - y)| ≤ (κ + κ') * A.u := by
    have : A.val a - A.val b - (x - y) = (A.val a - x) - (A.val b - y) := by ring
    rw [this, add_mul]; exact (abs_sub _ _).trans (add_le_add h1 h2)
  have s : |A.val a - A.val b| ≤ M + (κ + κ') * A.u := by
    have := abs_sub_abs_le_abs_sub (A.val a - A.val b) (x - y); linarith
  have s' : (κ + κ') * A.u ≤ κ + κ' := mul_le_of_le_one_right (by linarith) hu
  obtain ⟨f, r, -⟩ := A.sub a b ha.1 hb.1 (by linarith)
  refine ⟨f, ?_⟩
  have t := abs_sub_le (A.val (a - b)) (A.val a - A.val b) (x - y)
  have m1 : A.u * |A.val a - A.val b| ≤ A.u * (M + κ + κ') := mul_le_mul_of_nonneg_left (by linarith) hu0
  nlinarith

theorem close_mul {A : Arith} {κ κ' x y M N : ℝ} {a b : A.K} (hu : A.u ≤ 1) (ha : A.Close κ a x) (hb : A.Close κ' b y) (hk : 0 ≤ κ) (hk' : 0 ≤ κ')
    (hx : |x| ≤ M) (hy : |y| ≤ N) (hB : (M + κ) * (N + κ') ≤ A.big) :
    A.Close (κ * (N + κ') + M * κ' + (M + κ) * (N + κ') + 1) (a * b) (x * y) := by
  have hu0 := A.u_nonneg
  have hM : 0 ≤ M := (abs_nonneg _).trans hx
  have hN : 0 ≤ N := (abs_nonneg _).trans hy
  have bd : ∀ {κ z M : ℝ} {c : A.K}, A.Close κ c z → 0 ≤ κ → |z| ≤ M → |A.val c| ≤ M + κ := by
    intro κ z M c hc hk hz
    have := abs_sub_abs_le_abs_sub (A.val c) z
    have h2 : κ * A.u ≤ κ := mul_le_of_le_one_right hk hu
    have := hc.2
    linarith
  have b1 := bd ha hk hx
  have b2 := bd hb hk' hy
  have s : |A.val a * A.val b| ≤ (M + κ) * (N + κ') := by rw [abs_mul]; exact mul_le_mul b1 b2 (abs_nonneg _) (by positivity)
  obtain ⟨f, r, -⟩ := A.mul a b ha.1 hb.1 (s.trans hB)
  refine ⟨f, ?_⟩
  have e : |A.val a * A.val b - x * y| ≤ κ * A.u * (N + κ') + M * (κ' * A.u) := by
    have : A.val a * A.val b - x * y = (A.val a - x) * A.val b + x * (A.val b - y) := by ring
    rw [this]
    refine (abs_add_le _ _).trans (add_le_add ?_ ?_)
    · rw [abs_mul]; exact mul_le_mul ha.2 b2 (abs_nonneg _) (by positivity)
    · rw [abs_mul]; exact mul_le_mul hx hb.2 (abs_nonneg _) hM
  have t := abs_sub_le (A.val (a * b)) (A.val a * A.val b) (x * y)
  have m1 : A.u * |A.val a * A.val b| ≤ A.u * ((M + κ) * (N + κ')) := mul_le_mul_of_nonneg_left s hu0
  have m2 : A.u ^ 2 ≤ A.u := by nlinarith
  linarith

/-- the value of the solution at a point, for bounded coefficients -/
theorem state_close (κ M : ℝ) (hκ : 0 ≤ κ) (hM : 0 ≤ M) (nb : ℕ) : ∃ c B : ℝ, 0 ≤ c ∧ ∀ A : Arith, A.u ≤ 1 → B ≤ A.big → ∀ (φ' V : ℕ → A.K) (φ : ℕ → ℝ),
    (∀ b < nb, A.Close κ (φ' b) (φ b) ∧ |φ b| ≤ M ∧ A.fin (V b) ∧ |A.val (V b)| ≤ M) →
    A.Close c (loopSum nb fun b => 1 * φ' b * V b) (∑ b ∈ range nb, φ b * A.val (V b)) := by
  induction nb with
  | zero =>
    refine ⟨0, 0, le_rfl, fun A _ _ φ' V φ _ => ⟨A.zero.1, ?_⟩⟩
    show |A.val 0 - _| ≤ _
    rw [A.zero.2]; simp
  | succ n ih =>
    obtain ⟨c, B, hc, H⟩ := ih
    set c1 : ℝ := 0 * (M + κ) + 1 * κ + (1 + 0) * (M + κ) + 1 with hc1
    set c2 : ℝ := c1 * (M + 0) + M * 0 + (M + c1) * (M + 0) + 1 with hc2
    have hc10 : 0 ≤ c1 := by positivity
    have hc20 : 0 ≤ c2 := by positivity
    set M2 : ℝ := (n + 1) * (M * M) with hM2
    have hM20 : 0 ≤ M2 := by positivity
    refine ⟨2 * (c + c2) + M2 + 1, max (max B ((1 + 0) * (M + κ))) (max ((M + c1) * (M + 0)) (M2 + c + c2)), by positivity, ?_⟩
    intro A hu hB φ' V φ h
    obtain ⟨hB1, hB2⟩ := max_le_iff.1 hB
    obtain ⟨hB1, hB3⟩ := max_le_iff.1 hB1
    obtain ⟨hB2, hB4⟩ := max_le_iff.1 hB2
    have i1 := H A hu hB1 φ' V φ fun b hb => h b (by omega)
    obtain ⟨a1, a2, a3, a4⟩ := h n (by omega)
    have one : A.Close 0 (1 : A.K) 1 := ⟨A.one.1, by rw [A.one.2]; simp⟩
    have p1 : A.Close c1 (1 * φ' n) (φ n) := by
      have := close_mul hu one a1 le_rfl hκ (M := 1) (N := M) (by simp) a2 hB3
      rwa [one_mul (φ n)] at this
    have p2 : A.Close c2 (1 * φ' n * V n) (φ n * A.val (V n)) :=
      close_mul hu p1 (⟨a3, by simp⟩ : A.Close 0 (V n) (A.val (V n))) hc10 le_rfl a2 a4 hB2
    have e : (loopSum (n + 1) fun b => 1 * φ' b * V b) = (loopSum n fun b => 1 * φ' b * V b) + 1 * φ' n * V n := by
      unfold loopSum; rw [List.range_succ, List.foldl_append]; rfl
    rw [e, sum_range_succ]
    refine close_add hu i1 p2 hc hc20 ?_ hB4
    rw [← sum_range_succ (fun b => φ b * A.val (V b))]
    refine (abs_sum_le_sum_abs _ _).trans ?_
    calc ∑ b ∈ range (n + 1), |φ b * A.val (V b)| ≤ ∑ b ∈ range (n + 1), M * M := sum_le_sum fun b hb => by
          obtain ⟨-, b2, -, b4⟩ := h b (mem_range.1 hb)
          rw [abs_mul]; exact mul_le_mul b2 b4 (abs_nonneg _) hM
      _ = M2 := by rw [sum_const, card_range, nsmul_eq_mul, hM2]; push_cast; ring

/-- products with numbers known to be positive -/
theorem back_mul (c κ M W : ℝ) (hc : 0 ≤ c) (hκ : 0 ≤ κ) (hM : 0 ≤ M) (hW : 0 < W) :
    ∃ c' u0 B : ℝ, 0 ≤ c' ∧ 0 < u0 ∧ ∀ A : Arith, A.u ≤ u0 → B ≤ A.big → ∀ (a w : A.K) (X : ℝ), Back A c a X → X ≤ M → A.Close κ w W →
      Back A c' (a * w) (X * W) := by
  set C1 : ℝ := (c * (W + κ) + κ) * (1 / W + 1) with hC1
  have hC10 : 0 ≤ C1 := by positivity
  refine ⟨2 * C1 + 1, min 1 (W / (κ + 1)), M * W + C1 * (M * W + 1), by positivity, lt_min one_pos (by positivity), ?_⟩
  intro A hu hB a w X ha hXM hw
  obtain ⟨hu1, hu2⟩ := le_min_iff.1 hu
  have hu0 := A.u_nonneg
  have hX := ha.x0
  have ew := hw.2
  have hw0 : 0 ≤ A.val w := by
    have := (abs_le.1 ew).1
    rw [le_div_iff₀ (by positivity)] at hu2
    nlinarith
  have hwW : A.val w ≤ W + κ := by
    have := (abs_le.1 ew).2
    have : κ * A.u ≤ κ := mul_le_of_le_one_right hκ hu1
    linarith
  have p0 : 0 ≤ A.val a * A.val w := mul_nonneg ha.val0 hw0
  have hY0 : 0 ≤ X * W := by positivity
  have hq : |A.val a * A.val w - X * W| ≤ C1 * (A.u * (X * W) + A.u ^ 2) := by
    have e : A.val a * A.val w - X * W = (A.val a - X) * A.val w + X * (A.val w - W) := by ring
    have s1 : |A.val a * A.val w - X * W| ≤ c * (A.u * X + A.u ^ 2) * (W + κ) + X * (κ * A.u) := by
      rw [e]
      refine (abs_add_le _ _).trans (add_le_add ?_ ?_)
      · rw [abs_mul, abs_of_nonneg hw0]; exact mul_le_mul ha.err hwW hw0 (by positivity)
      · rw [abs_mul, abs_of_nonneg hX]; exact mul_le_mul_of_nonneg_left ew hX
    refine s1.trans ?_
    have s2 : A.u * X + A.u ^ 2 ≤ (1 / W + 1) * (A.u * (X * W) + A.u ^ 2) := by
      have : (1 / W + 1) * (A.u * (X * W) + A.u ^ 2) = A.u * X + A.u ^ 2 + (A.u * (X * W) + A.u ^ 2 / W) := by field_simp; ring
      rw [this]; have : 0 ≤ A.u * (X * W) + A.u ^ 2 / W := by positivity
      linarith
    have s3 : c * (A.u * X + A.u ^ 2) * (W + κ) + X * (κ * A.u) ≤ (c * (W + κ) + κ) * (A.u * X + A.u ^ 2) := by
      have : 0 ≤ κ * A.u ^ 2 := by positivity
      nlinarith
    have s4 := mul_le_mul_of_nonneg_left s2 (show 0 ≤ c * (W + κ) + κ by positivity)
    rw [hC1]; linarith
  have hYM : X * W ≤ M * W := mul_le_mul_of_nonneg_right hXM hW.le
  have hb1 : A.u * (X * W) + A.u ^ 2 ≤ M * W + 1 := by
    have : A.u * (X * W) ≤ 1 * (X * W) := mul_le_mul_of_nonneg_right hu1 hY0
    nlinarith
  have hqle : A.val a * A.val w ≤ X * W + C1 * (A.u * (X * W) + A.u ^ 2) := by have := (abs_le.1 hq).2; linarith
  obtain ⟨f, r1, r2⟩ := A.mul a w ha.fin hw.1 (by
    rw [abs_of_nonneg p0]
    have := mul_le_mul_of_nonneg_left hb1 hC10
    linarith)
  refine ⟨f, r2 p0, hY0, ?_⟩
  rw [abs_of_nonneg p0] at r1
  generalize A.val (a * w) = z at *
  generalize A.val a * A.val w = s at *
  generalize X * W = Y at *
  generalize A.u = u at *
  have h5 := abs_sub_le z s Y
  have h6 : u * s ≤ u * Y + C1 * (u * Y + u ^ 2) := by
    have h7 := mul_le_mul_of_nonneg_left hqle hu0
    have h8 : u * (C1 * (u * Y + u ^ 2)) ≤ 1 * (C1 * (u * Y + u ^ 2)) := mul_le_mul_of_nonneg_right hu1 (by positivity)
    nlinarith
  linarith

/-- statements that hold with some constant on all computers that are precise enough -/
def Unif (P : ℝ → Arith → Prop) : Prop := ∃ c u0 B : ℝ, 0 ≤ c ∧ 0 < u0 ∧ ∀ A : Arith, A.u ≤ u0 → B ≤ A.big → P c A

theorem Unif.and {P Q : ℝ → Arith → Prop} (hP : ∀ A c c', c ≤ c' → P c A → P c' A) (hQ : ∀ A c c', c ≤ c' → Q c A → Q c' A)
    (h : Unif P) (h' : Unif Q) : Unif fun c A => P c A ∧ Q c A := by
  obtain ⟨c, u0, B, hc, hu, H⟩ := h
  obtain ⟨c', u0', B', hc', hu', H'⟩ := h'
  refine ⟨max c c', min u0 u0', max B B', le_max_of_le_left hc, lt_min hu hu', fun A h1 h2 => ?_⟩
  obtain ⟨a1, a2⟩ := le_min_iff.1 h1
  obtain ⟨b1, b2⟩ := max_le_iff.1 h2
  exact ⟨hP A _ _ (le_max_left _ _) (H A a1 b1), hQ A _ _ (le_max_right _ _) (H' A a2 b2)⟩

theorem Unif.lt {n : ℕ} {P : ℕ → ℝ → Arith → Prop} (hP : ∀ j < n, ∀ A c c', c ≤ c' → P j c A → P j c' A)
    (h : ∀ j < n, Unif (P j)) : Unif fun c A => ∀ j < n, P j c A := by
  induction n with
  | zero => exact ⟨0, 1, 0, le_rfl, one_pos, fun A _ _ j hj => absurd hj (by omega)⟩
  | succ n ih =>
    obtain ⟨c, u0, B, hc, hu, H⟩ := Unif.and (fun A c c' hk hh j hj => hP j (by omega) A c c' hk (hh j hj)) (hP n (by omega))
      (ih (fun j hj => hP j (by omega)) fun j hj => h j (by omega)) (h n (by omega))
    refine ⟨c, u0, B, hc, hu, fun A h1 h2 j hj => ?_⟩
    obtain ⟨a, b⟩ := H A h1 h2
    rcases Nat.lt_succ_iff_lt_or_eq.1 hj with h | rfl
    · exact a j h
    · exact b

/-- one point: the square of the difference, times the weight, times the Jacobian -/
theorem post_point (κ M W J : ℝ) (hκ : 0 ≤ κ) (hM : 0 ≤ M) (hW : 0 < W) (hJ : 0 < J) : Unif fun c A => ∀ w dj d : A.K,
    A.Close κ w W → A.Close κ dj J → A.fin d → |A.val d| ≤ M → Back A c (HasLibm.powi d 2 * w * dj) (A.val d ^ 2 * W * J) := by
  obtain ⟨c1, u1, B1, hc1, hu1, H1⟩ := back_mul 16 κ (M ^ 2) W (by norm_num) hκ (by positivity) hW
  obtain ⟨c2, u2, B2, hc2, hu2, H2⟩ := back_mul c1 κ (M ^ 2 * W) J hc1 hκ (by positivity) hJ
  refine ⟨c2, min u1 u2, max (max B1 B2) (M ^ 2), hc2, lt_min hu1 hu2, fun A hu hB w dj d hw hj f hd => ?_⟩
  obtain ⟨a1, a2⟩ := le_min_iff.1 hu
  obtain ⟨b1, b3⟩ := max_le_iff.1 hB
  obtain ⟨b1, b2⟩ := max_le_iff.1 b1
  have hD : A.val d ^ 2 ≤ M ^ 2 := by rw [← sq_abs]; gcongr
  have hD0 : 0 ≤ A.val d ^ 2 := sq_nonneg _
  obtain ⟨g, r1, r2⟩ := A.powi d 2 f (by rw [abs_of_nonneg hD0]; linarith)
  have hu0 := A.u_nonneg
  have s1 : Back A 16 (HasLibm.powi d 2) (A.val d ^ 2) := by
    refine ⟨g, r2 hD0, hD0, r1.trans ?_⟩
    rw [abs_of_nonneg hD0]
    have : 0 ≤ A.u * A.val d ^ 2 := by positivity
    nlinarith
  have s2 := H1 A a1 b1 _ w _ s1 hD hw
  exact H2 A a2 b2 _ dj _ s2 (mul_le_mul_of_nonneg_right hD hW.le) hj

/-- one element: the sum over the points, in any order -/
theorem post_elem (nb nq : ℕ) (κ M : ℝ) (hκ : 0 ≤ κ) (hM : 0 ≤ M) (W J ex : ℕ → ℝ) (φ : ℕ → ℕ → ℝ) (hW : ∀ q < nq, 0 < W q)
    (hJ : ∀ q < nq, 0 < J q) : Unif fun c A => ∀ (w dj uq ex' : ℕ → A.K) (φ' : ℕ → ℕ → A.K) (V : ℕ → A.K),
    (∀ q < nq, A.Close κ (w q) (W q) ∧ A.Close κ (dj q) (J q) ∧ A.Close κ (ex' q) (ex q) ∧ ∀ b < nb, A.Close κ (φ' q b) (φ q b)) →
    (∀ b < nb, A.fin (V b) ∧ |A.val (V b)| ≤ M) → (∀ q < nq, uq q = 0 + loopSum nb fun b => 1 * φ' q b * V b) →
    ∀ t : Fl.Reduction, t.Sums nq → ∃ D : ℕ → ℝ,
      (∀ q < nq, |D q - (∑ b ∈ range nb, A.val (V b) * φ q b - ex q)| ≤ c * A.u) ∧
      Back A c (Fl.elemError w dj uq ex' t) (∑ q ∈ range nq, D q ^ 2 * W q * J q) ∧ ∑ q ∈ range nq, D q ^ 2 * W q * J q ≤ c := by
  -- bounds of the tables
  obtain ⟨Mφ, hMφ⟩ : ∃ Mφ : ℝ, ∀ q < nq, |ex q| ≤ Mφ ∧ ∀ b < nb, |φ q b| ≤ Mφ := by
    refine ⟨∑ q ∈ range nq, (|ex q| + ∑ b ∈ range nb, |φ q b|), fun q hq => ?_⟩
    have s1 : |ex q| + ∑ b ∈ range nb, |φ q b| ≤ ∑ q ∈ range nq, (|ex q| + ∑ b ∈ range nb, |φ q b|) :=
      single_le_sum (f := fun q => |ex q| + ∑ b ∈ range nb, |φ q b|) (fun q _ => by positivity) (mem_range.2 hq)
    have s0 : 0 ≤ ∑ b ∈ range nb, |φ q b| := sum_nonneg fun _ _ => abs_nonneg _
    refine ⟨by linarith, fun b hb => ?_⟩
    have s2 : |φ q b| ≤ ∑ b ∈ range nb, |φ q b| := single_le_sum (f := fun b => |φ q b|) (fun _ _ => abs_nonneg _) (mem_range.2 hb)
    have := abs_nonneg (ex q)
    linarith
  set N := max M (max Mφ 0) with hN
  have hN0 : 0 ≤ N := le_max_of_le_left hM
  obtain ⟨c1, B1, hc1, H1⟩ := state_close κ N hκ hN0 nb
  set S : ℝ := nb * (N * N) with hS
  have hS0 : 0 ≤ S := by positivity
  set c2 : ℝ := 2 * (0 + c1) + S + 1 with hc2
  have hc20 : 0 ≤ c2 := by positivity
  set c3 : ℝ := 2 * (c2 + κ) + (S + N) + 1 with hc3
  have hc30 : 0 ≤ c3 := by positivity
  set M3 : ℝ := S + N + c3 with hM3
  have hM30 : 0 ≤ M3 := by positivity
  obtain ⟨c4, u4, B4, hc4, hu4, H4⟩ := Unif.lt (n := nq) (fun j _ A c c' hk hh w dj d a1 a2 a3 a4 => (hh w dj d a1 a2 a3 a4).mono hk)
    fun q hq => post_point κ M3 (W q) (J q) hκ hM30 (hW q hq) (hJ q hq)
  set T : ℝ := ∑ q ∈ range nq, M3 ^ 2 * W q * J q with hT
  have hT0 : 0 ≤ T := sum_nonneg fun q hq => by
    have := hW q (mem_range.1 hq); have := hJ q (mem_range.1 hq); positivity
  set K : ℝ := (c4 + 1) * 8 ^ (2 * nq + 1) with hK
  have hK0 : 0 ≤ K := by positivity
  refine ⟨c3 + K + T, min 1 u4, max (max B1 (S + 0 + c1)) (max (S + N + c2 + κ) (max B4 (2 * (T + K * (T + 1))))), by positivity,
    lt_min one_pos hu4, ?_⟩
  intro A hu hB w dj uq ex' φ' V h1 h2 h3 t ht
  obtain ⟨hu1, hu2⟩ := le_min_iff.1 hu
  obtain ⟨b1, b2⟩ := max_le_iff.1 hB
  obtain ⟨b1, b3⟩ := max_le_iff.1 b1
  obtain ⟨b2, b4⟩ := max_le_iff.1 b2
  obtain ⟨b4, b5⟩ := max_le_iff.1 b4
  have hu0 := A.u_nonneg
  have hd : ∀ q < nq, A.Close c3 (uq q - ex' q) (∑ b ∈ range nb, A.val (V b) * φ q b - ex q) ∧
      |∑ b ∈ range nb, A.val (V b) * φ q b - ex q| ≤ S + N := by
    intro q hq
    obtain ⟨-, -, a3, a4⟩ := h1 q hq
    obtain ⟨m1, m2⟩ := hMφ q hq
    have nφ : Mφ ≤ N := (le_max_left _ _).trans (le_max_right _ _)
    have s1 := H1 A hu1 b1 (φ' q) V (φ q) fun b hb => ⟨a4 b hb, (m2 b hb).trans nφ, (h2 b hb).1, (h2 b hb).2.trans (le_max_left _ _)⟩
    have sb : |∑ b ∈ range nb, φ q b * A.val (V b)| ≤ S := by
      refine (abs_sum_le_sum_abs _ _).trans ?_
      calc ∑ b ∈ range nb, |φ q b * A.val (V b)| ≤ ∑ b ∈ range nb, N * N := sum_le_sum fun b hb => by
            rw [abs_mul]
            exact mul_le_mul ((m2 b (mem_range.1 hb)).trans nφ) ((h2 b (mem_range.1 hb)).2.trans (le_max_left _ _)) (abs_nonneg _) hN0
        _ = S := by rw [sum_const, card_range, nsmul_eq_mul]
    have s2 := close_add (M := S) hu1 (⟨A.zero.1, by rw [A.zero.2]; simp⟩ : A.Close 0 (0 : A.K) 0) s1 le_rfl hc1 (by rw [zero_add]; exact sb) b3
    rw [zero_add (∑ b ∈ range nb, φ q b * A.val (V b)), ← h3 q hq] at s2
    have e : ∑ b ∈ range nb, A.val (V b) * φ q b = ∑ b ∈ range nb, φ q b * A.val (V b) := sum_congr rfl fun b _ => mul_comm _ _
    rw [e]
    have sd : |∑ b ∈ range nb, φ q b * A.val (V b) - ex q| ≤ S + N := (abs_sub _ _).trans (add_le_add sb (m1.trans nφ))
    exact ⟨close_sub hu1 s2 a3 hc20 hκ sd b2, sd⟩
  refine ⟨fun q => A.val (uq q - ex' q), fun q hq => ?_, ?_⟩
  · refine (hd q hq).1.2.trans (mul_le_mul_of_nonneg_right (by linarith) hu0)
  · have hval : ∀ q < nq, |A.val (uq q - ex' q)| ≤ M3 := by
      intro q hq
      obtain ⟨⟨-, e1⟩, e2⟩ := hd q hq
      have := abs_sub_abs_le_abs_sub (A.val (uq q - ex' q)) (∑ b ∈ range nb, A.val (V b) * φ q b - ex q)
      have : c3 * A.u ≤ c3 := mul_le_of_le_one_right hc30 hu1
      linarith
    have hsum : ∑ q ∈ range nq, A.val (uq q - ex' q) ^ 2 * W q * J q ≤ T := by
      refine sum_le_sum fun q hq => ?_
      have hq' := mem_range.1 hq
      have : A.val (uq q - ex' q) ^ 2 ≤ M3 ^ 2 := by rw [← sq_abs]; exact pow_le_pow_left₀ (abs_nonneg _) (hval q hq') 2
      exact mul_le_mul_of_nonneg_right (mul_le_mul_of_nonneg_right this (hW q hq').le) (hJ q hq').le
    have := reduce_back (v := fun q => HasLibm.powi (uq q - ex' q) 2 * w q * dj q) (X := fun q => A.val (uq q - ex' q) ^ 2 * W q * J q)
      hc4 hu1 b5 le_rfl ht (fun q hq => H4 A hu2 b4 q hq _ _ _ (h1 q hq).1 (h1 q hq).2.1 (hd q hq).1.1 (hval q hq)) hsum
    exact ⟨this.mono (by linarith), hsum.trans (by linarith)⟩

/-- the volume of an element -/
theorem post_volume (nq : ℕ) (κ : ℝ) (hκ : 0 ≤ κ) (W J : ℕ → ℝ) (hW : ∀ q < nq, 0 < W q) (hJ : ∀ q < nq, 0 < J q) :
    Unif fun c A => ∀ w dj : ℕ → A.K, (∀ q < nq, A.Close κ (w q) (W q) ∧ A.Close κ (dj q) (J q)) →
      ∀ t : Fl.Reduction, t.Sums nq → Back A c (t.run fun q => w q * dj q) (∑ q ∈ range nq, W q * J q) := by
  have hpt : ∀ q < nq, Unif fun c A => ∀ w dj : A.K, A.Close κ w (W q) → A.Close κ dj (J q) → Back A c (w * dj) (W q * J q) := by
    intro q hq
    have hWq := hW q hq
    obtain ⟨c1, u1, B1, hc1, hu1, H1⟩ := back_mul (κ / W q) κ (W q) (J q) (by positivity) hκ hWq.le (hJ q hq)
    refine ⟨c1, min u1 (W q / (κ + 1)), B1, hc1, lt_min hu1 (by positivity), fun A hu hB w dj hw hj => ?_⟩
    obtain ⟨a1, a2⟩ := le_min_iff.1 hu
    have hu0 := A.u_nonneg
    refine H1 A a1 hB w dj (W q) ⟨hw.1, ?_, hWq.le, hw.2.trans ?_⟩ le_rfl hj
    · have := (abs_le.1 hw.2).1
      rw [le_div_iff₀ (by positivity)] at a2
      nlinarith
    · have : κ / W q * (A.u * W q + A.u ^ 2) = κ * A.u + κ / W q * A.u ^ 2 := by field_simp
      rw [this]
      have : 0 ≤ κ / W q * A.u ^ 2 := by positivity
      linarith
  obtain ⟨c4, u4, B4, hc4, hu4, H4⟩ := Unif.lt (n := nq) (fun j _ A c c' hk hh w dj a1 a2 => (hh w dj a1 a2).mono hk) hpt
  set T : ℝ := ∑ q ∈ range nq, W q * J q with hT
  have hT0 : 0 ≤ T := sum_nonneg fun q hq => by
    have := hW q (mem_range.1 hq); have := hJ q (mem_range.1 hq); positivity
  set K : ℝ := (c4 + 1) * 8 ^ (2 * nq + 1) with hK
  refine ⟨K, min 1 u4, max B4 (2 * (T + K * (T + 1))), by positivity, lt_min one_pos hu4, fun A hu hB w dj h t ht => ?_⟩
  obtain ⟨hu1, hu2⟩ := le_min_iff.1 hu
  obtain ⟨b4, b5⟩ := max_le_iff.1 hB
  exact reduce_back (v := fun q => w q * dj q) (X := fun q => W q * J q) hc4 hu1 b5 le_rfl ht
    (fun q hq => H4 A hu2 b4 q hq _ _ (h q hq).1 (h q hq).2) le_rfl

/-- the tables of the post-processor -/
theorem proj_close {sh : ShapeType} {t gt : BasisType} {p gorder nb ns ne : ℕ} {X : ℕ → ℕ → ℕ → ℝ} {mass vol proj : RefData ℝ}
    {fr : FaceRef ℝ} {N1 N2 : ℕ → ℕ → List (ℕ → ℝ)} (h : ExactSetup sh t gt p gorder nb ne X mass vol proj fr N1 N2) (κ : ℝ)
    {R : ∀ A : Arith, ((ℕ → A.K) → ℕ → A.K) → Prop} {ic : (ℕ → ℝ) → ℕ → ℝ} (hic : ComputesAll (shapeDim sh) ns R ic) :
    ∃ κ' u0 B : ℝ, 0 ≤ κ' ∧ 0 < u0 ∧ ∀ A : Arith, A.u ≤ u0 → B ≤ A.big → ∀ ic' : (ℕ → A.K) → ℕ → A.K, R A ic' → ∀ X' : ℕ → ℕ → ℕ → A.K,
      (∀ e < ne, ∀ i < shapeNodes sh gorder, ∀ j < shapeDim sh, A.Close κ (X' e i j) (X e i j)) →
      ∃ proj', volRef t gt p gorder (projRuleOrder p) = some proj' ∧ proj'.nq = proj.nq ∧ ∀ q < proj.nq,
        A.Close κ' (proj'.wts q) (proj.wts q) ∧ (∀ b < nb, A.Close κ' (proj'.val q b) (proj.val q b)) ∧ ∀ e < ne,
          A.Close κ' (setupDjac (shapeDim sh) (shapeNodes sh gorder) proj' (X' e) q)
            (setupDjac (shapeDim sh) (shapeNodes sh gorder) proj (X e) q) ∧
          ∀ s < ns, A.Close κ' (ic' (cArr (shapeDim sh) (refToPhys (shapeDim sh) (shapeNodes sh gorder) (proj'.gval q) (X' e))) s)
            (ic (cArr (shapeDim sh) (refToPhys (shapeDim sh) (shapeNodes sh gorder) (proj.gval q) (X e))) s) := by
  set l := sitFilter R ne (shapeNodes sh gorder) (shapeDim sh) κ X with hl
  have hA : Fine l Sit.A := sit_fine
  obtain ⟨proj', p1, p2⟩ := volRef_follow hA t gt p gorder (projRuleOrder p) proj h.projE
  have hX := fun e (he : e < ne) => sit_coords (R := R) (nn := shapeNodes sh gorder) (dim := shapeDim sh) (κ := κ) (X := X) he
  have E := EvK.lt (n := proj.nq) fun q _ => (EvK.fo (p2.wts q)).and ((EvK.lt (n := nb) fun b _ => EvK.fo (p2.val q b)).and
    (EvK.lt (n := ne) fun e he => (EvK.fo (djac_follow hA h.dim p2 (hX e he) q)).and
      (EvK.lt (n := ns) fun s hs => EvK.fo (ic_follow hA hic (ic' := fun i => i.par) (fun i => i.2.2)
        (x := fun i => cArr (shapeDim sh) (refToPhys (shapeDim sh) (shapeNodes sh gorder) ((proj' i).gval q) (i.co e)))
        (X := cArr (shapeDim sh) (refToPhys (shapeDim sh) (shapeNodes sh gorder) (proj.gval q) (X e))) (fun j hj => by
        simp only [cArr, hj, if_true]
        exact phys_follow hA (hX e he) (p2.gval q) j hj) s hs))))
  obtain ⟨κ', e1⟩ := E.ev
  obtain ⟨u0, B, hu0, H⟩ := sit_eventually e1
  refine ⟨max κ' 0, u0, B, le_max_right _ _, hu0, fun A hu hB ic' hR X' hX' => ?_⟩
  have c := H ⟨⟨A, X', ic'⟩, hX', hR⟩ hu hB
  set i : Sit R ne (shapeNodes sh gorder) (shapeDim sh) κ X := ⟨⟨A, X', ic'⟩, hX', hR⟩ with hi
  refine ⟨proj' i, p1 i, p2.nq i, fun q hq => ?_⟩
  obtain ⟨c1, c2, c3⟩ := c q hq
  exact ⟨c1.mono (le_max_left _ _), fun b hb => (c2 b hb).mono (le_max_left _ _), fun e he =>
    ⟨(c3 e he).1.mono (le_max_left _ _), fun s hs => ((c3 e he).2 s hs).mono (le_max_left _ _)⟩⟩

/-- sums over the elements of the ranks and over the ranks, in any order -/
theorem World.reduce {A : Arith} {α : Type} {m : GMesh α} {nranks : ℕ} {part : List ℕ} {rms : ℕ → RankMesh α} (w : World m nranks part rms)
    (hN : nranks ≤ m.numElems) {c M : ℝ} (hc : 0 ≤ c) (hu : A.u ≤ 1) {ne : ℕ} (hne : m.numElems = ne) {c1 c2 : ℝ}
    (h1 : c1 = (c + 1) * 8 ^ (2 * ne + 1)) (h2 : c2 = (c1 + 1) * 8 ^ (2 * ne + 1))
    (hB1 : 2 * (M + c1 * (M + 1)) ≤ A.big) (hB2 : 2 * (M + c2 * (M + 1)) ≤ A.big) {a : ℕ → ℕ → A.K} {X : ℕ → ℝ}
    (h : ∀ r < nranks, ∀ k e : ℕ, (rms r).l2gElem[k]? = some e → Back A c (a r k) (X e)) (hX : ∀ e < ne, 0 ≤ X e)
    (hM : ∑ e ∈ range ne, X e ≤ M)
    {tE : ℕ → Fl.Reduction} {tR : Fl.Reduction} (hE : ∀ r < nranks, (tE r).Sums (rms r).numElemsPart) (hR : tR.Sums nranks) :
    Back A c2 (tR.run fun r => (tE r).run (a r)) (∑ e ∈ range ne, X e) := by
  subst hne
  have key : ∀ r, ∃ en, r < nranks → EnumOK en ∧ partition m nranks nranks part en r = some (rms r) := by
    intro r
    by_cases hr : r < nranks
    · obtain ⟨en, h⟩ := w.ranks r hr
      exact ⟨en, fun _ => h⟩
    · exact ⟨id, fun h => absurd h hr⟩
  choose en hen using key
  have hen' : ∀ r, EnumOK (if r < nranks then en r else id) := by
    intro r
    split
    · rename_i hr; exact (hen r hr).1
    · exact fun l => List.Perm.refl l
  have hpart : ∀ r < nranks, partition m nranks nranks part (if r < nranks then en r else id) r = some (rms r) := by
    intro r hr; rw [if_pos hr]; exact (hen r hr).2
  have tot := rank_sum m nranks part _ w.mesh w.parts hen' rms hpart X
  unfold allreduceSum at tot
  rw [loopSum_eq] at tot
  simp only [loopSum_eq] at tot
  have len : ∀ r < nranks, (rms r).l2gElem.length = (rms r).numElemsPart := fun r hr => by
    rw [(w.res hr).l2gElem, (w.res hr).numElemsPart]
  have hget : ∀ r < nranks, ∀ k < (rms r).numElemsPart, ∃ e, (rms r).l2gElem[k]? = some e := fun r hr k hk =>
    ⟨_, List.getElem?_eq_getElem (by rw [len r hr]; exact hk)⟩
  have pos : ∀ r < nranks, 0 ≤ ∑ k ∈ range (rms r).numElemsPart, X (((rms r).l2gElem[k]?).getD 0) := fun r hr =>
    sum_nonneg fun k hk => by
      obtain ⟨e, he⟩ := hget r hr k (mem_range.1 hk)
      rw [he]; exact hX e (w.elem_lt' hr he)
  have hrank : ∀ r < nranks, ∑ k ∈ range (rms r).numElemsPart, X (((rms r).l2gElem[k]?).getD 0) ≤ M := fun r hr =>
    (single_le_sum (f := fun r => ∑ k ∈ range (rms r).numElemsPart, X (((rms r).l2gElem[k]?).getD 0))
      (fun r hr => pos r (mem_range.1 hr)) (mem_range.2 hr)).trans (tot.le.trans hM)
  have small : ∀ r < nranks, (rms r).numElemsPart ≤ m.numElems := fun r hr => by
    rw [(w.res hr).numElemsPart]
    unfold ownedElems
    exact (List.length_filter_le _ _).trans (by rw [List.length_range])
  have hc1 : 0 ≤ c1 := by rw [h1]; positivity
  have s1 : ∀ r < nranks, Back A c1 ((tE r).run (a r)) (∑ k ∈ range (rms r).numElemsPart, X (((rms r).l2gElem[k]?).getD 0)) := by
    intro r hr
    rw [h1]
    refine reduce_back (v := a r) (X := fun k => X (((rms r).l2gElem[k]?).getD 0)) hc hu (by rw [← h1]; exact hB1) (small r hr) (hE r hr) (fun k hk => ?_) (hrank r hr)
    obtain ⟨e, he⟩ := hget r hr k hk
    rw [he]; exact h r hr k e he
  rw [← tot, h2]
  exact reduce_back (v := fun r => (tE r).run (a r)) hc1 hu (by rw [← h2]; exact hB2) hN hR s1 (tot.le.trans hM)

/-- there are no more ranks than elements -/
theorem launch_ranks {K : Type} {m : GMesh K} {nranks : ℕ} {part : List ℕ} {env : ℕ → RankEnv K} (h : LaunchOK m nranks part env) :
    nranks ≤ m.numElems := by
  have hsub : Finset.range nranks ⊆ part.toFinset := by
    intro r hr
    have hb := h.busy r (mem_range.1 hr)
    obtain ⟨f, hf⟩ : ∃ f, f ∈ m.faces.filter fun f => decide (Touches part r f) := by
      cases e : m.faces.filter fun f => decide (Touches part r f) with
      | nil => rw [e] at hb; simp at hb
      | cons f l => exact ⟨f, by simp⟩
    have ht := of_decide_eq_true (List.mem_filter.1 hf).2
    rw [List.mem_toFinset]
    rcases ht with h | h <;> exact List.mem_of_getElem? h
  have h1 := card_le_card hsub
  rw [card_range] at h1
  rw [← h.parts.len]
  exact h1.trans (List.toFinset_card_le _)

/-- the triangle inequality for weighted norms -/
theorem wnorm_le {ι : Type} (s : Finset ι) (a D d : ι → ℝ) (δ : ℝ) (hδ : 0 ≤ δ) (ha : ∀ i ∈ s, 0 ≤ a i) (h : ∀ i ∈ s, |D i - d i| ≤ δ) :
    Real.sqrt (∑ i ∈ s, a i * D i ^ 2) ≤ Real.sqrt (∑ i ∈ s, a i * d i ^ 2) + Real.sqrt (∑ i ∈ s, a i) * δ := by
  set P := ∑ i ∈ s, a i * d i ^ 2 with hP
  set Q := ∑ i ∈ s, a i with hQ
  have hP0 : 0 ≤ P := sum_nonneg fun i hi => mul_nonneg (ha i hi) (sq_nonneg _)
  have hQ0 : 0 ≤ Q := sum_nonneg ha
  have cs : (∑ i ∈ s, a i * |d i|) ^ 2 ≤ P * Q := by
    have := Finset.sum_mul_sq_le_sq_mul_sq s (fun i => Real.sqrt (a i) * |d i|) fun i => Real.sqrt (a i)
    have e1 : ∑ i ∈ s, Real.sqrt (a i) * |d i| * Real.sqrt (a i) = ∑ i ∈ s, a i * |d i| := sum_congr rfl fun i hi => by
      rw [mul_right_comm, Real.mul_self_sqrt (ha i hi)]
    have e2 : ∑ i ∈ s, (Real.sqrt (a i) * |d i|) ^ 2 = P := sum_congr rfl fun i hi => by
      rw [mul_pow, Real.sq_sqrt (ha i hi), sq_abs]
    have e3 : ∑ i ∈ s, Real.sqrt (a i) ^ 2 = Q := sum_congr rfl fun i hi => Real.sq_sqrt (ha i hi)
    rwa [e1, e2, e3] at this
  have cs' : ∑ i ∈ s, a i * |d i| ≤ Real.sqrt P * Real.sqrt Q := by
    rw [← Real.sqrt_mul hP0]; exact Real.le_sqrt_of_sq_le cs
  refine Real.sqrt_le_iff.2 ⟨by positivity, ?_⟩
  have term : ∀ i ∈ s, a i * D i ^ 2 ≤ a i * d i ^ 2 + 2 * δ * (a i * |d i|) + δ ^ 2 * a i := by
    intro i hi
    have h0 := ha i hi
    have h1 := h i hi
    have : |D i| ≤ |d i| + δ := by have := abs_sub_abs_le_abs_sub (D i) (d i); linarith
    have h2 : D i ^ 2 ≤ (|d i| + δ) ^ 2 := by rw [← sq_abs]; exact pow_le_pow_left₀ (abs_nonneg _) this 2
    have h3 := mul_le_mul_of_nonneg_left h2 h0
    have h4 : (|d i| + δ) ^ 2 = d i ^ 2 + 2 * δ * |d i| + δ ^ 2 := by rw [add_sq, sq_abs]; ring
    rw [h4] at h3
    linarith
  have tot := sum_le_sum term
  rw [sum_add_distrib, sum_add_distrib, ← mul_sum, ← mul_sum] at tot
  have e : (Real.sqrt P + Real.sqrt Q * δ) ^ 2 = P + 2 * δ * (Real.sqrt P * Real.sqrt Q) + δ ^ 2 * Q := by
    rw [add_sq, mul_pow, Real.sq_sqrt hP0, Real.sq_sqrt hQ0]; ring
  rw [e]
  have := mul_le_mul_of_nonneg_left cs' (show 0 ≤ 2 * δ by positivity)
  linarith

theorem wnorm_lip {ι : Type} (s : Finset ι) (a D d : ι → ℝ) (δ : ℝ) (hδ : 0 ≤ δ) (ha : ∀ i ∈ s, 0 ≤ a i) (h : ∀ i ∈ s, |D i - d i| ≤ δ) (Vol : ℝ) :
    |Real.sqrt ((∑ i ∈ s, a i * D i ^ 2) / Vol) - Real.sqrt ((∑ i ∈ s, a i * d i ^ 2) / Vol)| ≤ Real.sqrt ((∑ i ∈ s, a i) / Vol) * δ := by
  have p1 : 0 ≤ ∑ i ∈ s, a i * D i ^ 2 := sum_nonneg fun i hi => mul_nonneg (ha i hi) (sq_nonneg _)
  have p2 : 0 ≤ ∑ i ∈ s, a i * d i ^ 2 := sum_nonneg fun i hi => mul_nonneg (ha i hi) (sq_nonneg _)
  have p3 : 0 ≤ ∑ i ∈ s, a i := sum_nonneg ha
  rw [Real.sqrt_div p1, Real.sqrt_div p2, Real.sqrt_div p3, ← sub_div, abs_div, abs_of_nonneg (Real.sqrt_nonneg Vol), div_mul_eq_mul_div]
  refine div_le_div_of_nonneg_right ?_ (Real.sqrt_nonneg _)
  have h1 := wnorm_le s a D d δ hδ ha h
  have h2 := wnorm_le s a d D δ hδ ha fun i hi => by rw [abs_sub_comm]; exact h i hi
  rw [abs_le]; constructor <;> linarith


/-- the distance the post-processor prints, in terms of its tables -/
noncomputable def refDist (dim nn nb ne : ℕ) (proj : RefData ℝ) (X : ℕ → ℕ → ℕ → ℝ) (nq : ℕ) (vw : ℕ → ℝ) (dj : ℕ → ℕ → ℝ)
    (u : (ℕ → ℝ) → ℕ → ℝ) (V : Coeffs ℝ) (v : ℕ) : ℝ :=
  Real.sqrt ((∑ i ∈ range ne ×ˢ range proj.nq, (proj.wts i.2 * setupDjac dim nn proj (X i.1) i.2) *
      (∑ b ∈ range nb, V i.1 b v * proj.val i.2 b - u (cArr dim (refToPhys dim nn (proj.gval i.2) (X i.1))) v) ^ 2) /
    ∑ e ∈ range ne, ∑ q ∈ range nq, vw q * dj e q)

theorem Fl.callExact_eq {K : Type} [Zero K] [One K] [Add K] [Sub K] [Mul K] [Neg K] [Div K] [NatCast K] [HasSqrt K] [HasLibm K] [DecLit K]
    [LT K] [DecidableLT K] [LE K] [DecidableLE K] [DecidableEq K] (dim : ℕ) (ph : Fl.Physics K) (x : ℕ → K) (t : K) (U : ℕ → K) :
    Fl.callExact dim ph x t U = Fl.callIC dim ph x t U := by
  unfold Fl.callExact Fl.callIC
  split
  · cases ph.ic <;> rfl
  · cases ph.ic <;> rfl
  · rename_i h2 h3
    split
    · exact absurd rfl h2
    · exact absurd rfl h3
    · rfl

theorem post_rank {A : Arith} {job : Fl.Job A.K} {dim nranks : ℕ} {env : RankEnv A.K} {f : SolFile A.K} {r : ℕ} {q : Fl.PostRank A.K}
    (h : Fl.postRank job dim nranks env f r = some q) :
    partition job.mesh job.nparts nranks (elemPartition job.nparts job.mesh.numElems env.metis) env.enum r = some q.rm ∧
    buildGeom job.num.basis job.num.gbasis job.num.order 1 r q.rm env.scr env.MM0 = some q.geom ∧
    ∃ s, readInCoefficients nranks f r newSolver = some s ∧ q.time = s.time ∧ ∀ e b v, q.uc e b v = (s.uc e b v).getD 0 := by
  unfold Fl.postRank at h
  simp only [Option.bind_eq_bind, Option.bind_eq_some_iff] at h
  obtain ⟨rm, h1, -, -, g, h2, s, h3, h4⟩ := h
  split at h4
  · cases h4; exact ⟨h1, h2, s, h3, rfl, fun _ _ _ => rfl⟩
  · cases h4

/-- the errors of all elements and their volumes -/
theorem post_all (nb nq nv ne ns : ℕ) (κ M : ℝ) (hκ : 0 ≤ κ) (hM : 0 ≤ M) (W : ℕ → ℝ) (J : ℕ → ℕ → ℝ) (ex : ℕ → ℕ → ℕ → ℝ) (φ : ℕ → ℕ → ℝ)
    (W' : ℕ → ℝ) (J' : ℕ → ℕ → ℝ) (hne : 0 < ne) (hnv : 0 < nv) (hW : ∀ q < nq, 0 < W q) (hJ : ∀ e < ne, ∀ q < nq, 0 < J e q)
    (hW' : ∀ q < nv, 0 < W' q) (hJ' : ∀ e < ne, ∀ q < nv, 0 < J' e q) :
    Unif fun C A => ∀ {α : Type} (m : GMesh α) (nranks : ℕ) (part : List ℕ) (rms : ℕ → RankMesh α), World m nranks part rms →
      nranks ≤ m.numElems → m.numElems = ne →
      ∀ (w : ℕ → A.K) (dj : ℕ → ℕ → ℕ → A.K) (uq ex' : ℕ → ℕ → ℕ → A.K) (φ' : ℕ → ℕ → A.K) (uc : ℕ → ℕ → ℕ → A.K) (V : ℕ → ℕ → A.K)
        (w' : ℕ → A.K) (dj' : ℕ → ℕ → ℕ → A.K) (s : ℕ),
      (∀ q < nq, A.Close κ (w q) (W q) ∧ ∀ b < nb, A.Close κ (φ' q b) (φ q b)) →
      (∀ r < nranks, ∀ k e : ℕ, (rms r).l2gElem[k]? = some e → ∀ q < nq, A.Close κ (dj r k q) (J e q) ∧ A.Close κ (ex' r k q) (ex e q s)) →
      (∀ q < nv, A.Close κ (w' q) (W' q)) →
      (∀ r < nranks, ∀ k e : ℕ, (rms r).l2gElem[k]? = some e → ∀ q < nv, A.Close κ (dj' r k q) (J' e q)) →
      s < ns →
      (∀ e < ne, ∀ b < nb, A.fin (V e b) ∧ |A.val (V e b)| ≤ M) →
      (∀ r < nranks, ∀ k e : ℕ, (rms r).l2gElem[k]? = some e → ∀ b < nb, uc r k b = V e b) →
      (∀ r < nranks, ∀ k e : ℕ, (rms r).l2gElem[k]? = some e → ∀ q < nq, uq r k q = 0 + loopSum nb fun b => 1 * φ' q b * uc r k b) →
      ∀ (tq tq' : ℕ → ℕ → Fl.Reduction) (tE tE' : ℕ → Fl.Reduction) (tR tR' : Fl.Reduction),
      (∀ r < nranks, ∀ k < (rms r).numElemsPart, (tq r k).Sums nq ∧ (tq' r k).Sums nv) →
      (∀ r < nranks, (tE r).Sums (rms r).numElemsPart ∧ (tE' r).Sums (rms r).numElemsPart) → tR.Sums nranks → tR'.Sums nranks →
      A.fin (Fl.errorNorm (fun r => (tE r).run fun k => Fl.elemError w (dj r k) (uq r k) (ex' r k) (tq r k))
        (fun r => (tE' r).run fun k => (tq' r k).run fun q => w' q * dj' r k q) tR tR') ∧
      |A.val (Fl.errorNorm (fun r => (tE r).run fun k => Fl.elemError w (dj r k) (uq r k) (ex' r k) (tq r k))
        (fun r => (tE' r).run fun k => (tq' r k).run fun q => w' q * dj' r k q) tR tR') -
        Real.sqrt ((∑ i ∈ range ne ×ˢ range nq, (W i.2 * J i.1 i.2) * (∑ b ∈ range nb, A.val (V i.1 b) * φ i.2 b - ex i.1 i.2 s) ^ 2) /
          ∑ e ∈ range ne, ∑ q ∈ range nv, W' q * J' e q)| ≤ C * A.u := by
  obtain ⟨c1, u1, B1, hc1, hu1, H1⟩ := Unif.lt (n := ns) (fun j _ A c c' hk hh e he w dj uq ex' φ' V a1 a2 a3 t ht => by
      obtain ⟨D, d1, d2, d3⟩ := hh e he w dj uq ex' φ' V a1 a2 a3 t ht
      exact ⟨D, fun q hq => (d1 q hq).trans (mul_le_mul_of_nonneg_right hk A.u_nonneg), d2.mono hk, d3.trans hk⟩)
    fun s _ => Unif.lt (n := ne) (fun j _ A c c' hk hh w dj uq ex' φ' V a1 a2 a3 t ht => by
      obtain ⟨D, d1, d2, d3⟩ := hh w dj uq ex' φ' V a1 a2 a3 t ht
      exact ⟨D, fun q hq => (d1 q hq).trans (mul_le_mul_of_nonneg_right hk A.u_nonneg), d2.mono hk, d3.trans hk⟩)
    fun e he => post_elem nb nq κ M hκ hM W (J e) (fun q => ex e q s) φ hW (hJ e he)
  obtain ⟨c2, u2, B2, hc2, hu2, H2⟩ := Unif.lt (n := ne) (fun j _ A c c' hk hh w dj a1 t ht => (hh w dj a1 t ht).mono hk)
    fun e he => post_volume nv κ hκ W' (J' e) hW' (hJ' e he)
  set Vol : ℝ := ∑ e ∈ range ne, ∑ q ∈ range nv, W' q * J' e q with hVol
  have hVe : ∀ e < ne, 0 < ∑ q ∈ range nv, W' q * J' e q := fun e he =>
    sum_pos (fun q hq => mul_pos (hW' q (mem_range.1 hq)) (hJ' e he q (mem_range.1 hq))) ⟨0, mem_range.2 hnv⟩
  have hVol0 : 0 < Vol := sum_pos (fun e he => hVe e (mem_range.1 he)) ⟨0, mem_range.2 hne⟩
  -- constants of the sums
  set a1 : ℝ := (c1 + 1) * 8 ^ (2 * ne + 1) with ha1
  set a2 : ℝ := (a1 + 1) * 8 ^ (2 * ne + 1) with ha2
  set b1 : ℝ := (c2 + 1) * 8 ^ (2 * ne + 1) with hb1
  set b2 : ℝ := (b1 + 1) * 8 ^ (2 * ne + 1) with hb2
  have ha20 : 0 ≤ a2 := by positivity
  have hb20 : 0 ≤ b2 := by positivity
  set Me : ℝ := ne * c1 with hMe
  have hMe0 : 0 ≤ Me := by positivity
  obtain ⟨c3, u3, B3, hc3, hu3, H3⟩ := back_div (c := max a2 b2) (M := Me) (Vol := Vol) (le_max_of_le_left ha20) hMe0 hVol0
  obtain ⟨c4, u4, B4, hc4, hu4, H4⟩ := back_root (c := c3) (M := Me / Vol) hc3 (by positivity)
  set Q : ℝ := Real.sqrt ((∑ i ∈ range ne ×ˢ range nq, W i.2 * J i.1 i.2) / Vol) with hQ
  have hQ0 : 0 ≤ Q := Real.sqrt_nonneg _
  refine ⟨c4 + Q * c1, min (min 1 (min u1 u2)) (min u3 u4), max (max (max B1 B2) (max B3 B4))
    (max (max (2 * (Me + a1 * (Me + 1))) (2 * (Me + a2 * (Me + 1)))) (max (2 * (Vol + b1 * (Vol + 1))) (2 * (Vol + b2 * (Vol + 1))))), by positivity,
    lt_min (lt_min one_pos (lt_min hu1 hu2)) (lt_min hu3 hu4), ?_⟩
  intro A hu hB α m nranks part rms wd hN hmne w dj uq ex' φ' uc V w' dj' s g1 g2 g3 g4 hs g5 g6 g7 tq tq' tE tE' tR tR' t1 t2 t3 t4
  simp only [le_min_iff] at hu
  simp only [max_le_iff] at hB
  obtain ⟨⟨k0, k1, k2⟩, k3, k4⟩ := hu
  obtain ⟨⟨⟨l1, l2⟩, l3, l4⟩, ⟨l5, l6⟩, l7, l8⟩ := hB
  have hu0 := A.u_nonneg
  have len : ∀ r < nranks, ∀ k e : ℕ, (rms r).l2gElem[k]? = some e → k < (rms r).numElemsPart := fun r hr k e hk => by
    have := (List.getElem?_eq_some_iff.1 hk).1
    rwa [(wd.res hr).l2gElem, ← (wd.res hr).numElemsPart] at this
  have lt : ∀ r < nranks, ∀ k e : ℕ, (rms r).l2gElem[k]? = some e → e < ne := fun r hr k e hk => hmne ▸ wd.elem_lt' hr hk
  -- the errors
  have key : ∀ e, ∃ D : ℕ → ℝ, e < ne → ∃ r < nranks, ∃ k : ℕ, (rms r).l2gElem[k]? = some e ∧
      (∀ q < nq, |D q - (∑ b ∈ range nb, A.val (V e b) * φ q b - ex e q s)| ≤ c1 * A.u) ∧
      Back A c1 (Fl.elemError w (dj r k) (uq r k) (ex' r k) (tq r k)) (∑ q ∈ range nq, D q ^ 2 * W q * J e q) ∧
      ∑ q ∈ range nq, D q ^ 2 * W q * J e q ≤ c1 := by
    intro e
    by_cases he : e < ne
    · obtain ⟨r1, r2⟩ := wd.rankOf_lt (hmne.symm ▸ he)
      obtain ⟨k, hk⟩ := List.mem_iff_getElem?.1 r2
      obtain ⟨D, d1, d2, d3⟩ := H1 A k1 l1 s hs e he w (dj _ k) (uq _ k) (ex' _ k) φ' (V e)
        (fun q hq => ⟨(g1 q hq).1, (g2 _ r1 k e hk q hq).1, (g2 _ r1 k e hk q hq).2, (g1 q hq).2⟩) (g5 e he)
        (fun q hq => by
          rw [g7 _ r1 k e hk q hq]
          congr 1
          exact loopSum_congr fun b hb => by rw [g6 _ r1 k e hk b hb]) _ (t1 _ r1 k (len _ r1 k e hk)).1
      exact ⟨D, fun _ => ⟨_, r1, k, hk, d1, d2, d3⟩⟩
    · exact ⟨fun _ => 0, fun h => absurd h he⟩
  choose D hD using key
  have uniq : ∀ r < nranks, ∀ k : ℕ, ∀ e : ℕ, (rms r).l2gElem[k]? = some e → ∀ r' < nranks, ∀ k' : ℕ, (rms r').l2gElem[k']? = some e → r = r' ∧ k = k' := by
    intro r hr k e hk r' hr' k' hk'
    have o1 := List.mem_of_getElem? hk
    have o2 := List.mem_of_getElem? hk'
    rw [(wd.res hr).l2gElem, mem_owned] at o1
    rw [(wd.res hr').l2gElem, mem_owned] at o2
    have e1 : r = r' := by have := o1.2.symm.trans o2.2; simpa using this
    subst e1
    refine ⟨rfl, ?_⟩
    obtain ⟨p1, p2⟩ := List.getElem?_eq_some_iff.1 hk
    obtain ⟨p3, p4⟩ := List.getElem?_eq_some_iff.1 hk'
    have nd : (rms r).l2gElem.Nodup := by
      rw [(wd.res hr).l2gElem]; unfold ownedElems; exact List.Nodup.filter _ List.nodup_range
    exact (List.Nodup.getElem_inj_iff nd).1 (p2.trans p4.symm)
  have hXe : ∀ e < ne, 0 ≤ ∑ q ∈ range nq, D e q ^ 2 * W q * J e q := fun e he => by
    obtain ⟨_, _, _, _, _, b, _⟩ := hD e he; exact b.x0
  have hXM : ∑ e ∈ range ne, ∑ q ∈ range nq, D e q ^ 2 * W q * J e q ≤ Me := by
    calc _ ≤ ∑ e ∈ range ne, c1 := sum_le_sum fun e he => by
          obtain ⟨_, _, _, _, _, _, b⟩ := hD e (mem_range.1 he); exact b
      _ = Me := by rw [sum_const, card_range, nsmul_eq_mul]
  have sE := wd.reduce (A := A) hN hc1 k0 hmne ha1 ha2 l5 l6 (a := fun r k => Fl.elemError w (dj r k) (uq r k) (ex' r k) (tq r k))
    (X := fun e => ∑ q ∈ range nq, D e q ^ 2 * W q * J e q) (fun r hr k e hk => by
      obtain ⟨r', hr', k', hk', -, b, -⟩ := hD e (lt r hr k e hk)
      obtain ⟨rfl, rfl⟩ := uniq r hr k e hk r' hr' k' hk'
      exact b) hXe hXM (fun r hr => (t2 r hr).1) t3
  -- the volumes
  have sV := wd.reduce (A := A) hN hc2 k0 hmne hb1 hb2 l7 l8 (a := fun r k => (tq' r k).run fun q => w' q * dj' r k q)
    (X := fun e => ∑ q ∈ range nv, W' q * J' e q) (fun r hr k e hk =>
      H2 A k2 l2 e (lt r hr k e hk) w' (dj' r k) (fun q hq => ⟨g3 q hq, g4 r hr k e hk q hq⟩) _ (t1 r hr k (len r hr k e hk)).2)
    (fun e he => (hVe e he).le) le_rfl (fun r hr => (t2 r hr).2) t4
  have sQ := H3 A k3 l3 _ _ _ (sE.mono (le_max_left _ _)) hXM (sV.mono (le_max_right _ _))
  obtain ⟨f, hr⟩ := H4 A k4 l4 _ _ sQ (div_le_div_of_nonneg_right hXM hVol0.le)
  refine ⟨f, ?_⟩
  have hfl : ∑ e ∈ range ne, ∑ q ∈ range nq, D e q ^ 2 * W q * J e q =
      ∑ i ∈ range ne ×ˢ range nq, (W i.2 * J i.1 i.2) * D i.1 i.2 ^ 2 := by
    rw [sum_product]; exact sum_congr rfl fun e _ => sum_congr rfl fun q _ => by ring
  rw [hfl] at hr
  have lip := wnorm_lip (range ne ×ˢ range nq) (fun i => W i.2 * J i.1 i.2) (fun i => D i.1 i.2)
    (fun i => ∑ b ∈ range nb, A.val (V i.1 b) * φ i.2 b - ex i.1 i.2 s) (c1 * A.u) (by positivity)
    (fun i hi => by
      obtain ⟨h1, h2⟩ := mem_product.1 hi
      exact (mul_pos (hW _ (mem_range.1 h2)) (hJ _ (mem_range.1 h1) _ (mem_range.1 h2))).le)
    (fun i hi => by
      obtain ⟨h1, h2⟩ := mem_product.1 hi
      obtain ⟨_, _, _, _, d1, _, _⟩ := hD i.1 (mem_range.1 h1)
      exact d1 i.2 (mem_range.1 h2)) Vol
  have tri := abs_sub_le (A.val (Fl.errorNorm (fun r => (tE r).run fun k => Fl.elemError w (dj r k) (uq r k) (ex' r k) (tq r k))
        (fun r => (tE' r).run fun k => (tq' r k).run fun q => w' q * dj' r k q) tR tR'))
    (Real.sqrt ((∑ i ∈ range ne ×ˢ range nq, (W i.2 * J i.1 i.2) * D i.1 i.2 ^ 2) / Vol))
    (Real.sqrt ((∑ i ∈ range ne ×ˢ range nq, (W i.2 * J i.1 i.2) * (∑ b ∈ range nb, A.val (V i.1 b) * φ i.2 b - ex i.1 i.2 s) ^ 2) / Vol))
  refine tri.trans ?_
  rw [add_mul]
  refine add_le_add hr (lip.trans (le_of_eq ?_))
  rw [hQ]; ring


/-- the post-processor, in terms of the tables of the exact setup -/
theorem SetupIs.post {sh : ShapeType} {t gt : BasisType} {p dim nb nq nqf : ℕ} {m : GMesh ℝ} {ok : IFace → Prop}
    {ph : Physics} {start : (ℕ → ℝ) → ℕ → ℝ} {G : Geom ℝ} {U : Coeffs ℝ} {mass vol proj : RefData ℝ} {fr : FaceRef ℝ}
    {N1 N2 : ℕ → ℕ → List (ℕ → ℝ)}
    (h : SetupIs sh t gt p 1 nb (dim + 2) nq nqf m ok start G U mass vol proj fr N1 N2) (hshd : shapeDim sh = dim)
    {fsh gfsh : Option ShapeType} (hsh : basisShape t = some (sh, fsh)) (hgsh : basisShape gt = some (sh, gfsh))
    (hnb : shapeNumBasis sh p = some nb) (hgnb : shapeNumBasis sh 1 = some (shapeNodes sh 1))
    (hn : m.npe = shapeNodes sh 1) (hf : ∀ f ∈ m.faces, f.faceL < shapeFaces sh ∧ f.faceR < shapeFaces sh)
    {nb1 gnb : ℕ} {gg : BasisType × ℕ × ℕ} (b1 : getNumBases t p = some nb) (b2 : getNumBases1d t p = some nb1)
    (b3 : geometricBasis t = some gg) (b4 : getNumBases gg.1 1 = some gnb) (b5 : gg.1 = gt) (hmax : nb ≤ 300)
    (hcap : ∀ e < m.numElems, sidesOf m.faces e ≤ 6)
    (κ : ℝ) (hs : StartState ph dim start) {d : Disc ℝ}
    (hd : buildDisc t gt p 1 (dim + 2) (eulerDirFlux dim ph.γ) (eulerNumFlux ph.ftype dim ph.γ) = some d)
    (hdnq : d.nq = nq) (hdnb : d.nb = nb) {vw : ℕ → ℝ} (hdw : ∀ q < nq, d.volWts q = vw q) (hγ : 1 < ph.γ)
    (hne : 0 < m.numElems) (hnq : 0 < nq) (hW : ∀ q < proj.nq, 0 < proj.wts q)
    (hJ : ∀ e < m.numElems, ∀ q < proj.nq, 0 < setupDjac dim (shapeNodes sh 1) proj (fileCoords m e) q)
    (hW' : ∀ q < nq, 0 < vw q) (hJ' : ∀ e < m.numElems, ∀ q < nq, 0 < G.djac e q) (M : ℝ) (hM : 0 ≤ M) :
    ∃ C u0 B : ℝ, 0 ≤ C ∧ 0 < u0 ∧ ∀ A : Arith, A.u ≤ u0 → B ≤ A.big →
      ∀ (deck : Fl.Deck A.K) (st : StepperType) (dt tend : A.K), DeckRead A κ deck dim p t ph st dt tend →
      ∀ (fs : String → List String → Option (MeshFile A.K)) (m' : GMesh A.K), MeshGiven A κ dim deck fs m m' →
      ∀ (nranks : ℕ) (part : List ℕ) (env : ℕ → RankEnv A.K), LaunchOK m' nranks part env →
      (∀ f ∈ m.faces, part[f.elemL]? ≠ part[f.elemR]? → ok f) →
      ∀ (un : Fl.Unset A.K) (f : SolFile A.K) (V : Coeffs A.K), FileHolds f nranks part m'.numElems nb (dim + 2) V →
      (∀ e < m.numElems, ∀ b < nb, ∀ v < dim + 2, A.fin (V e b v) ∧ |A.val (V e b v)| ≤ M) →
      PostOutcome A deck fs un dim nranks nq proj.nq env f fun v N =>
        |N - refDist dim (shapeNodes sh 1) nb m.numElems proj (fileCoords m) nq vw G.djac start (fun e b v => A.val (V e b v)) v| ≤ C * A.u := by
  subst hshd
  set κ' : ℝ := max κ 3 with hκ'
  have hcomp := start_computes hs hγ κ'
  obtain ⟨κ2, u2, B2, hu2, H2⟩ := h.machine hsh hgsh hnb hgnb hn hf κ' hcomp hd ph.ftype ph.γ
  obtain ⟨κ3, u3, B3, hκ3, hu3, H3⟩ := proj_close h.exact κ' hcomp
  set κ4 : ℝ := max κ2 κ3 with hκ4
  obtain ⟨C, u1, B1, hC, hu1, H1⟩ := post_all nb proj.nq nq m.numElems (shapeDim sh + 2) κ4 M (le_max_of_le_right hκ3) hM proj.wts
    (fun e q => setupDjac (shapeDim sh) (shapeNodes sh 1) proj (fileCoords m e) q)
    (fun e q s => start (cArr (shapeDim sh) (refToPhys (shapeDim sh) (shapeNodes sh 1) (proj.gval q) (fileCoords m e))) s)
    proj.val vw G.djac hne hnq hW hJ hW' hJ'
  refine ⟨C, min (min u1 u2) (min u3 1), max (max B1 B2) (max B3 2), hC, lt_min (lt_min hu1 hu2) (lt_min hu3 one_pos), ?_⟩
  intro A hu hB deck st dt tend hdeck fs m' hgiven nranks part env hl hcut un f V hfile hV
  simp only [le_min_iff] at hu
  simp only [max_le_iff] at hB
  obtain ⟨⟨k1, k2⟩, k3, k4⟩ := hu
  obtain ⟨⟨l1, l2⟩, l3, l4⟩ := hB
  obtain ⟨⟨name, mf, hname, hmf, hof⟩, hread, hm', hused, hcoord⟩ := hgiven
  have hread' : MeshRead A κ' (shapeDim sh) m m' :=
    ⟨hread.numElems, hread.npe, hread.faces, fun e he i hi j hj => (hread.coords e he i hi j hj).mono (le_max_left _ _)⟩
  -- the input file
  obtain ⟨data, e1, e2, e3⟩ := machine_solver hdeck k4 l4
  obtain ⟨ph', e4, e5, e6, e7⟩ := e3 un.γ un.R
  have hphys := e7 un.ic
  obtain ⟨num, n1, n2, n3, n4⟩ := params_of hdeck.order hdeck.basisName hdeck.quad nb nb1 gnb gg b1 b2 b3 b4 hmax
  rw [b5] at n4
  -- the mesh
  obtain ⟨rd, hrd, hrm⟩ := readMesh_of hof hm' (by rw [hread.numElems, hread.faces]; exact hcap)
  obtain ⟨rms, w, hparts, hview⟩ := hl.world hm'
  -- the setup
  obtain ⟨D, d1, d2, d3⟩ := H2 A k2 l2 (Fl.solverIC (shapeDim sh) ph' un.ic) ⟨(ph', un.ic), hphys, rfl⟩ m' hread' ph'.γ un.num un.vol hphys.γ
  have hvf : Fl.solverVolFlux (shapeDim sh) ph' un.vol = fun U => Fl.convFlux (shapeDim sh) ph'.γ U un.vol := by
    funext U; unfold Fl.solverVolFlux; rw [e5]
  have hnf : Fl.solverNumFlux (shapeDim sh) ph' un.num = machineNumFlux ph.ftype (shapeDim sh) ph'.γ un.num := by
    unfold Fl.solverNumFlux; rw [e5, e6]
  have d1' := d1
  rw [← hvf, ← hnf] at d1'
  have hjob := machine_job hdeck un nranks n1 n2 n3 n4 hsh rfl fs hname hmf hrd hrm e1 e2 e4 (toInt := fun _ => some 0) d1'
    (n := 0) (by unfold Fl.numSteps; rfl)
  have hDnb : D.nb = nb := d2.nb.trans hdnb
  have hread2 : ∀ rms : ℕ → RankMesh A.K, World m' nranks part rms → ∀ r < nranks, ∃ s, readInCoefficients nranks f r newSolver = some s ∧ s.time = 0 ∧
      ∀ i e : ℕ, (rms r).l2gElem[i]? = some e → ∀ j < nb, ∀ k < shapeDim sh + 2, s.uc i j k = some (V e j k) := by
    intro rms w r hr
    obtain ⟨s, s1, s2, s3⟩ := hfile r hr
    refine ⟨s, s1, s2, fun i e hi => s3 i e ?_⟩
    rw [(w.res hr).l2gElem] at hi
    exact hi
  refine ⟨_, hjob, fun r hlt => ?_, ?_⟩
  · obtain ⟨v, hv⟩ := hview r hlt
    obtain ⟨g, hg, -⟩ := d3 nranks part rms w hcut r hlt (env r).scr (env r).MM0
    obtain ⟨s, s1, -, s3⟩ := hread2 rms w r hlt
    unfold Fl.postRank
    simp only [Option.bind_eq_bind]
    rw [hl.part_eq r hlt, hparts r hlt, Option.bind_some, hv, Option.bind_some, n3, n4, n2, hg, Option.bind_some, s1,
      Option.bind_some, if_pos]
    · simp
    · intro e he b hb v hv
      have he' : e < (rms r).l2gElem.length := by rw [(w.res hlt).l2gElem, ← (w.res hlt).numElemsPart]; exact he
      rw [s3 e _ (List.getElem?_eq_getElem he') b (by rw [← hDnb]; exact hb) v hv]
      simp
  · clear hview hparts w
    intro qs hqs sums hsums Uq0
    have hqq := fun r hlt => post_rank (hqs r hlt)
    simp only [n2, n3, n4] at hqq
    have hparts : ∀ r < nranks, partition m' nranks nranks part (env r).enum r = some (qs r).rm := fun r hlt => by
      rw [← (hqq r hlt).1, hl.part_eq r hlt]
    have w : World m' nranks part fun r => (qs r).rm := ⟨hm', hl.parts, fun r hr => ⟨_, hl.enum r, hparts r hr⟩⟩
    -- the tables, with the coordinates of a rank
    have hX : ∀ e < m.numElems, ∀ i < shapeNodes sh 1, ∀ j < shapeDim sh,
        A.Close κ' (fileCoords m' e i j) (fileCoords m e i j) := by rw [← hn]; exact hread'.coords
    obtain ⟨proj', p1, p2, p3⟩ := H3 A k3 l3 (Fl.solverIC (shapeDim sh) ph' un.ic) ⟨(ph', un.ic), hphys, rfl⟩ (fileCoords m') hX
    have tab : ∀ r < nranks, ∀ k e : ℕ, (qs r).rm.l2gElem[k]? = some e → ∀ q < proj.nq,
        A.Close κ4 (setupDjac (shapeDim sh) (shapeNodes sh 1) proj' (elemCoords (qs r).rm k) q)
          (setupDjac (shapeDim sh) (shapeNodes sh 1) proj (fileCoords m e) q) ∧
        ∀ s < shapeDim sh + 2, A.Close κ4 (Fl.solverIC (shapeDim sh) ph' un.ic (cArr (shapeDim sh) (refToPhys (shapeDim sh) (shapeNodes sh 1) (proj'.gval q) (elemCoords (qs r).rm k))) s)
            (start (cArr (shapeDim sh) (refToPhys (shapeDim sh) (shapeNodes sh 1) (proj.gval q) (fileCoords m e))) s) := by
      intro r hr k e hk q hq
      have he : e < m.numElems := by rw [← hread.numElems]; exact w.elem_lt' hr hk
      obtain ⟨proj2, r1, r2, r3⟩ := H3 A k3 l3 (Fl.solverIC (shapeDim sh) ph' un.ic) ⟨(ph', un.ic), hphys, rfl⟩
        (fun e' => if e' = e then elemCoords (qs r).rm k else fileCoords m' e') (fun e' he' i hi j hj => by
          by_cases h' : e' = e
          · subst h'
            simp only [if_true]
            rw [C56_element_coordinates m' nranks part (env r).enum hm' hl.parts (hl.enum r) r hr _ (hparts r hr) k e' hk i
              (by rw [hread.npe, hn]; exact hi) j]
            exact hX e' he' i hi j hj
          · simp only [h', if_false]
            exact hX e' he' i hi j hj)
      rw [p1] at r1; cases r1
      obtain ⟨-, -, q3⟩ := r3 q hq
      obtain ⟨q4, q5⟩ := q3 e he
      simp only [if_true] at q4 q5
      exact ⟨q4.mono (le_max_right _ _), fun s hs => (q5 s hs).mono (le_max_right _ _)⟩
    have geo : ∀ r < nranks, ∀ k e : ℕ, (qs r).rm.l2gElem[k]? = some e → ∀ q < nq, A.Close κ4 ((qs r).geom.djac k q) (G.djac e q) := by
      intro r hr k e hk q hq
      obtain ⟨g, hg, hgr, -⟩ := d3 nranks part _ w hcut r hr (env r).scr (env r).MM0
      rw [(hqq r hr).2.1] at hg; cases hg
      exact (hgr.djac k e hk q (by rw [hdnq]; exact hq)).mono (le_max_left _ _)
    unfold Fl.postPrint
    simp only [Option.bind_eq_bind]
    have p1' : volRef (K := A.K) t gt p 1 (2 * max p 1) = some proj' := p1
    rw [n3, n4, n2, hsh, Option.bind_some, hgsh, Option.bind_some, hgnb, Option.bind_some, p1', Option.bind_some]
    refine ⟨_, rfl, fun v hv => ?_⟩
    have res := H1 A k1 l1 m' nranks part (fun r => (qs r).rm) w (launch_ranks hl) hread.numElems proj'.wts
      (fun r k => setupDjac (shapeDim sh) (shapeNodes sh 1) proj' (elemCoords (qs r).rm k))
      (fun r k q => evaluateState proj'.nq D.nb (shapeDim sh + 2) proj'.val ((qs r).uc k) (Uq0 r k) q v)
      (fun r k q => Fl.solverExact (shapeDim sh) ph' un.ic (qs r).time
        (cArr (shapeDim sh) (refToPhys (shapeDim sh) (shapeNodes sh 1) (proj'.gval q) (elemCoords (qs r).rm k))) v)
      proj'.val (fun r k b => (qs r).uc k b v) (fun e b => V e b v) D.volWts (fun r k => (qs r).geom.djac k) v
      (fun q hq => ⟨(p3 q hq).1.mono (le_max_right _ _), fun b hb => ((p3 q hq).2.1 b hb).mono (le_max_right _ _)⟩)
      (fun r hr k e hk q hq => ⟨(tab r hr k e hk q hq).1, by
        obtain ⟨-, -, s, s1, s2, -⟩ := hqq r hr
        obtain ⟨s', s1', s4, -⟩ := hread2 _ w r hr
        rw [s1] at s1'; cases s1'
        have : Fl.solverExact (shapeDim sh) ph' un.ic (qs r).time = Fl.solverIC (shapeDim sh) ph' un.ic := by
          funext x
          unfold Fl.solverExact Fl.solverIC
          rw [Fl.callExact_eq, s2, s4]
        rw [this]
        exact (tab r hr k e hk q hq).2 v hv⟩)
      (fun q hq => by
        rw [← hdw q hq]
        exact (d2.volWts q (by rw [hdnq]; exact hq)).mono (le_max_left _ _))
      geo hv (fun e he b hb => hV e he b hb v hv)
      (fun r hr k e hk b hb => by
        obtain ⟨-, -, s, s1, -, s3⟩ := hqq r hr
        obtain ⟨s', s1', -, s5⟩ := hread2 _ w r hr
        rw [s1] at s1'; cases s1'
        rw [s3, s5 k e hk b hb v hv]; rfl)
      (fun r hr k e hk q hq => by
        rw [← p2] at hq
        unfold evaluateState cAxB_to_C gemm
        simp only [hq, hv, and_self, if_true, hDnb])
      (fun r k => sums.errQ r k v) sums.volQ (fun r => sums.errE r v) sums.volE (sums.errR v) sums.volR
      (fun r hr k hk => ⟨hsums.errQ r hr k hk v, hsums.volQ r hr k hk⟩) (fun r hr => ⟨hsums.errE r hr v, hsums.volE r hr⟩)
      (hsums.errR v) hsums.volR
    exact res

end DG
