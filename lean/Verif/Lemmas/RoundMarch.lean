import Verif.Lemmas.LipOrder

/-!
A run whose steps are perturbed stays close to the unperturbed run.
-/
open Set Filter Topology
namespace DG
variable {E : Type*} [NormedAddCommGroup E]

theorem perturbed_march {T r L h ε δ : ℝ} {Φ : ℝ → ℝ → E → E} {y : ℝ → E} (hL : 0 ≤ L) (hh : 0 < h)
    (hε : 0 ≤ ε) (hδ : 0 ≤ δ)
    (stab : ∀ t u v, 0 ≤ t → t + h ≤ T → ‖u - y t‖ ≤ r → ‖v - y t‖ ≤ r →
      ‖Φ t h u - Φ t h v‖ ≤ (1 + L * h) * ‖u - v‖)
    {x z : ℕ → E} {P : ℕ → Prop} (hx : ∀ n : ℕ, x (n + 1) = Φ (n * h) h (x n)) (hr : 0 ≤ r)
    (near : ∀ n : ℕ, n * h ≤ T → ‖x n - y (n * h)‖ ≤ r / 2) (h0 : ‖z 0 - x 0‖ ≤ ε) (hP : P 0)
    (step : ∀ n : ℕ, P n → (n + 1) * h ≤ T → ‖z n - y (n * h)‖ ≤ r →
      P (n + 1) ∧ ‖z (n + 1) - Φ (n * h) h (z n)‖ ≤ δ)
    (small : Real.exp (L * T) * (ε + T / h * δ) ≤ r / 2) (n : ℕ) (hn : n * h ≤ T) :
    P n ∧ ‖z n - x n‖ ≤ Real.exp (L * T) * (ε + T / h * δ) := by
  have up : ∀ n : ℕ, n * h ≤ T → Real.exp (L * (n * h)) * (ε + n * δ) ≤ Real.exp (L * T) * (ε + T / h * δ) := by
    intro n hn
    have a1 : (n : ℝ) ≤ T / h := (le_div_iff₀ hh).2 hn
    have a2 : Real.exp (L * (n * h)) ≤ Real.exp (L * T) := Real.exp_le_exp.2 (mul_le_mul_of_nonneg_left hn hL)
    have a3 : ε + n * δ ≤ ε + T / h * δ := by gcongr
    exact mul_le_mul a2 a3 (by positivity) (Real.exp_nonneg _)
  have key : ∀ n : ℕ, n * h ≤ T → P n ∧ ‖z n - x n‖ ≤ Real.exp (L * (n * h)) * (ε + n * δ) := by
    intro n
    induction n with
    | zero => intro _; exact ⟨hP, by simpa using h0⟩
    | succ n ih =>
      intro hn
      push_cast at hn ⊢
      have hn' : n * h ≤ T := by linarith
      obtain ⟨i1, i2⟩ := ih hn'
      have nx := near n hn'
      have nz : ‖z n - y (n * h)‖ ≤ r := by
        have := norm_add_le_of_le (i2.trans ((up n hn').trans small)) nx
        rw [sub_add_sub_cancel] at this
        linarith
      obtain ⟨s1, s2⟩ := step n i1 hn nz
      refine ⟨s1, ?_⟩
      have s3 := stab (n * h) (z n) (x n) (by positivity) (by linarith) nz (by linarith)
      rw [hx n]
      have e1 : L * ((n + 1) * h) = L * h + L * (n * h) := by ring
      have s4 : 1 + L * h ≤ Real.exp (L * h) := by linarith [Real.add_one_le_exp (L * h)]
      have s5 : 1 ≤ Real.exp (L * h + L * (n * h)) := Real.one_le_exp (by positivity)
      rw [e1]
      calc ‖z (n + 1) - Φ (n * h) h (x n)‖
          = ‖(z (n + 1) - Φ (n * h) h (z n)) + (Φ (n * h) h (z n) - Φ (n * h) h (x n))‖ := by
            rw [sub_add_sub_cancel]
        _ ≤ δ + (1 + L * h) * ‖z n - x n‖ := norm_add_le_of_le s2 s3
        _ ≤ Real.exp (L * h + L * (n * h)) * δ + Real.exp (L * h) * (Real.exp (L * (n * h)) * (ε + n * δ)) := by
            refine add_le_add (le_mul_of_one_le_left hδ s5) ?_
            exact mul_le_mul s4 i2 (norm_nonneg _) (Real.exp_nonneg _)
        _ = _ := by rw [Real.exp_add]; ring
  exact ⟨(key n hn).1, (key n hn).2.trans (up n hn)⟩

/-- One constant each for the exact run and for stability, for both methods. -/
theorem tube_order [NormedSpace ℝ E] {T R L M : ℝ} {F : E → E} {y : ℝ → E} (hT : 0 ≤ T) (hR : 0 < R) (hL : 0 ≤ L)
    (hM : 0 ≤ M) (tube : Tube T R L M (fun _ => F) y)
    (hy : ∀ t ∈ Icc 0 T, HasDerivWithinAt y (F (y t)) (Icc 0 T) t) :
    ∃ D h0 : ℝ, 0 ≤ D ∧ 0 < h0 ∧ h0 ≤ 1 ∧ ∀ Φ, Φ = rk4V (fun _ => F) ∨ Φ = eulerV (fun _ => F) →
      (∀ (h : ℝ) (n : ℕ), 0 < h → h ≤ h0 → n * h ≤ T →
        (march Φ h n (y 0)).1 = n * h ∧ ‖(march Φ h n (y 0)).2 - y (n * h)‖ ≤ D * h ∧ D * h ≤ R / 4) ∧
      ∀ h t u v, 0 < h → h ≤ h0 → 0 ≤ t → t + h ≤ T → ‖u - y t‖ ≤ R / 2 → ‖v - y t‖ ≤ R / 2 →
        ‖Φ t h u - Φ t h v‖ ≤ (1 + 2 * L * h) * ‖u - v‖ := by
  have sm : ∀ {h : ℝ}, 0 ≤ h → h ≤ min (R / (4 * M + 1)) (1 / (L + 1)) → 4 * h * M ≤ R ∧ h * L ≤ 1 := by
    intro h hh hle
    have l1 : h ≤ R / (4 * M + 1) := hle.trans (min_le_left _ _)
    have l2 : h ≤ 1 / (L + 1) := hle.trans (min_le_right _ _)
    rw [le_div_iff₀ (by positivity)] at l1 l2
    exact ⟨by nlinarith, by nlinarith⟩
  obtain ⟨D1, h1, h1p, c1⟩ := march_converges (q := 1) (r := R / 2) (L := 2 * L) (C := 2 * (L * M))
    (h1 := min (R / (4 * M + 1)) (1 / (L + 1))) le_rfl hT (by positivity) (by positivity) (by positivity)
    (by positivity) (Φ := rk4V (fun _ => F)) (y := y)
    (fun t h u ht hh hle hTh hu =>
      rk4_stable tube hR hL hM ht hh hTh (sm hh hle).1 (sm hh hle).2 hu)
    (fun t h ht hh hle hTh => lip_rk4_local tube hL hM hR hy ht hh hTh (sm hh hle).1)
  obtain ⟨D2, h2, h2p, c2⟩ := march_converges (q := 1) (r := R / 2) (L := L) (C := L * M)
    (h1 := min (R / (4 * M + 1)) (1 / (L + 1))) le_rfl hT (by positivity) (by positivity) hL
    (by positivity) (Φ := eulerV (fun _ => F)) (y := y)
    (fun t h u ht hh hle hTh hu => euler_stable tube hR ht hh hTh hu)
    (fun t h ht hh hle hTh => lip_exact tube hL hM hR hy ht hh hTh (sm hh hle).1)
  set D := max |D1| |D2| with hD
  have hD0 : 0 ≤ D := (abs_nonneg D1).trans (le_max_left _ _)
  refine ⟨D, min 1 (min (min h1 h2) (min (min (R / (4 * M + 1)) (1 / (L + 1))) (R / 4 / (D + 1)))), hD0,
    by positivity, min_le_left _ _, fun Φ hΦ => ?_⟩
  have split : ∀ {h : ℝ}, h ≤ min 1 (min (min h1 h2) (min (min (R / (4 * M + 1)) (1 / (L + 1))) (R / 4 / (D + 1)))) →
      h ≤ h1 ∧ h ≤ h2 ∧ h ≤ min (R / (4 * M + 1)) (1 / (L + 1)) ∧ h ≤ R / 4 / (D + 1) := by
    intro h hle
    have hle := hle.trans (min_le_right _ _)
    exact ⟨hle.trans ((min_le_left _ _).trans (min_le_left _ _)), hle.trans ((min_le_left _ _).trans (min_le_right _ _)),
      hle.trans ((min_le_right _ _).trans (min_le_left _ _)), hle.trans ((min_le_right _ _).trans (min_le_right _ _))⟩
  constructor
  · intro h n hh hle hn
    obtain ⟨l1, l2, l3, l4⟩ := split hle
    have small : D * h ≤ R / 4 := by
      rw [le_div_iff₀ (by positivity)] at l4
      nlinarith
    obtain ⟨a1, a2⟩ := c1 h n hh l1 hn
    obtain ⟨b1, b2⟩ := c2 h n hh l2 hn
    rw [pow_one] at a2 b2
    have a3 : ‖(march (rk4V (fun _ => F)) h n (y 0)).2 - y (n * h)‖ ≤ D * h :=
      a2.trans (mul_le_mul_of_nonneg_right ((le_abs_self D1).trans (le_max_left _ _)) hh.le)
    have b3 : ‖(march (eulerV (fun _ => F)) h n (y 0)).2 - y (n * h)‖ ≤ D * h :=
      b2.trans (mul_le_mul_of_nonneg_right ((le_abs_self D2).trans (le_max_right _ _)) hh.le)
    rcases hΦ with rfl | rfl
    · exact ⟨a1, a3, small⟩
    · exact ⟨b1, b3, small⟩
  · intro h t u v hh hle ht hTh hu hv
    obtain ⟨l1, l2, l3, l4⟩ := split hle
    rcases hΦ with rfl | rfl
    · exact rk4_stable₂ tube hR hL hM ht hh.le hTh (sm hh.le l3).1 (sm hh.le l3).2 hu hv
    · refine (euler_stable₂ tube hR ht hh.le hTh hu hv).trans ?_
      refine mul_le_mul_of_nonneg_right ?_ (norm_nonneg _)
      nlinarith [mul_nonneg hL hh.le]

end DG
