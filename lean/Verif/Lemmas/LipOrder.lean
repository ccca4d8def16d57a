import Verif.Lemmas.TimeOrderGlobal
import Verif.Lemmas.LipCalc
import Mathlib.Analysis.ODE.ExistUnique

/-!
Convergence of the methods for a right-hand side that is only Lipschitz continuous near the exact
solution, and local existence of the exact solution.
-/
open Set Filter Topology
open scoped NNReal
namespace DG
variable {E : Type*} [NormedAddCommGroup E] [NormedSpace ℝ E]

/-- The tube around a solution of a locally Lipschitz equation. -/
theorem lip_tube {T : ℝ} {F : E → E} {Ω : Set E} (hO : IsOpen Ω) (hF : ∀ u ∈ Ω, LipAt F u) {y : ℝ → E}
    (hΩ : ∀ t ∈ Icc 0 T, y t ∈ Ω)
    (hy : ∀ t ∈ Icc 0 T, HasDerivWithinAt y (F (y t)) (Icc 0 T) t) :
    ∃ R L M : ℝ, 0 < R ∧ 0 ≤ L ∧ 0 ≤ M ∧ Tube T R L M (fun _ => F) y ∧
      ∀ t ∈ Icc 0 T, ∀ u, ‖u - y t‖ ≤ R → u ∈ Ω := by
  have cont : ContinuousOn y (Icc 0 T) := fun t ht => (hy t ht).continuousWithinAt
  have hK : IsCompact (y '' Icc 0 T) := isCompact_Icc.image_of_continuousOn cont
  have main : ∃ R L M : ℝ, 0 < R ∧ 0 ≤ L ∧ 0 ≤ M ∧ ∀ x ∈ y '' Icc 0 T,
      (∀ u v, ‖u - x‖ ≤ R → ‖v - x‖ ≤ R → ‖F u - F v‖ ≤ L * ‖u - v‖) ∧
      ∀ u, ‖u - x‖ ≤ R → ‖F u‖ ≤ M ∧ u ∈ Ω := by
    refine hK.induction_on (p := fun S => ∃ R L M : ℝ, 0 < R ∧ 0 ≤ L ∧ 0 ≤ M ∧ ∀ x ∈ S,
      (∀ u v, ‖u - x‖ ≤ R → ‖v - x‖ ≤ R → ‖F u - F v‖ ≤ L * ‖u - v‖) ∧
      ∀ u, ‖u - x‖ ≤ R → ‖F u‖ ≤ M ∧ u ∈ Ω) ⟨1, 0, 0, one_pos, le_rfl, le_rfl, by simp⟩ ?_ ?_ ?_
    · rintro s t hst ⟨R, L, M, hR, hL, hM, h⟩
      exact ⟨R, L, M, hR, hL, hM, fun x hx => h x (hst hx)⟩
    · rintro s t ⟨R, L, M, hR, hL, hM, h⟩ ⟨R', L', M', hR', hL', hM', h'⟩
      refine ⟨min R R', max L L', max M M', lt_min hR hR', hL.trans (le_max_left _ _),
        hM.trans (le_max_left _ _), ?_⟩
      rintro x (hx | hx)
      · obtain ⟨a, b⟩ := h x hx
        exact ⟨fun u v hu hv => (a u v (hu.trans (min_le_left _ _)) (hv.trans (min_le_left _ _))).trans
            (mul_le_mul_of_nonneg_right (le_max_left _ _) (norm_nonneg _)),
          fun u hu => ⟨(b u (hu.trans (min_le_left _ _))).1.trans (le_max_left _ _),
            (b u (hu.trans (min_le_left _ _))).2⟩⟩
      · obtain ⟨a, b⟩ := h' x hx
        exact ⟨fun u v hu hv => (a u v (hu.trans (min_le_right _ _)) (hv.trans (min_le_right _ _))).trans
            (mul_le_mul_of_nonneg_right (le_max_right _ _) (norm_nonneg _)),
          fun u hu => ⟨(b u (hu.trans (min_le_right _ _))).1.trans (le_max_right _ _),
            (b u (hu.trans (min_le_right _ _))).2⟩⟩
    · rintro _ ⟨t, ht, rfl⟩
      obtain ⟨K, s, hs, hlip⟩ := hF _ (hΩ t ht)
      obtain ⟨ε, hε, hsub⟩ := Metric.mem_nhds_iff.1 (inter_mem hs (hO.mem_nhds (hΩ t ht)))
      refine ⟨Metric.ball (y t) (ε / 3), mem_nhdsWithin_of_mem_nhds (Metric.ball_mem_nhds _ (by positivity)),
        ε / 3, K, ‖F (y t)‖ + K * ε, by positivity, by positivity, by positivity, fun x hx => ?_⟩
      have mem : ∀ u, ‖u - x‖ ≤ ε / 3 → u ∈ Metric.ball (y t) ε := by
        intro u hu
        rw [Metric.mem_ball] at hx ⊢
        calc dist u (y t) ≤ dist u x + dist x (y t) := dist_triangle _ _ _
          _ < ε := by rw [dist_eq_norm u x]; linarith
      refine ⟨fun u v hu hv => ?_, fun u hu => ⟨?_, (hsub (mem u hu)).2⟩⟩
      · have h1 := hlip.dist_le_mul u (hsub (mem u hu)).1 v (hsub (mem v hv)).1
        simpa [dist_eq_norm] using h1
      · have h1 := hlip.dist_le_mul u (hsub (mem u hu)).1 (y t) (hsub (Metric.mem_ball_self hε)).1
        have h2 := (Metric.mem_ball.1 (mem u hu)).le
        have h3 : (K : ℝ) * dist u (y t) ≤ K * ε := mul_le_mul_of_nonneg_left h2 K.2
        have h4 : ‖F u‖ ≤ ‖F (y t)‖ + ‖F u - F (y t)‖ := by
          have := norm_add_le (F (y t)) (F u - F (y t))
          simpa using this
        rw [dist_eq_norm] at h1
        linarith
  obtain ⟨R, L, M, hR, hL, hM, h⟩ := main
  have hx : ∀ t ∈ Icc 0 T, y t ∈ y '' Icc 0 T := fun t ht => ⟨t, ht, rfl⟩
  refine ⟨R, L, M, hR, hL, hM, ⟨fun t ht u hu => ((h _ (hx t ht)).2 u hu).1,
    fun t ht u v hu hv => (h _ (hx t ht)).1 u v hu hv, ?_⟩, fun t ht u hu => ((h _ (hx t ht)).2 u hu).2⟩
  intro t ht s hs
  have h1 := (convex_Icc 0 T).norm_image_sub_le_of_norm_hasDerivWithin_le (f := y) (C := M)
    (fun x hx => hy x hx)
    (fun x hx' => ((h _ (hx x hx')).2 (y x) (by simpa using hR.le)).1) ht hs
  simpa using h1

section
variable {T R L M : ℝ} {F : E → E} {y : ℝ → E}

/-- The exact solution over one step, to first order. -/
theorem lip_exact (ht : Tube T R L M (fun _ => F) y) (hL : 0 ≤ L) (hM : 0 ≤ M) (hR : 0 < R)
    (hy : ∀ t ∈ Icc 0 T, HasDerivWithinAt y (F (y t)) (Icc 0 T) t) {t h : ℝ} (h0 : 0 ≤ t) (hh : 0 ≤ h)
    (hT : t + h ≤ T) (hsm : 4 * h * M ≤ R) : ‖y (t + h) - (y t + h • F (y t))‖ ≤ L * M * h ^ 2 := by
  have tm : t ∈ Icc 0 T := ⟨h0, by linarith⟩
  have sub : Icc t (t + h) ⊆ Icc 0 T := Icc_subset_Icc h0 hT
  have hM4 : h * M ≤ R := by nlinarith [mul_nonneg hh hM]
  have h1 := (convex_Icc t (t + h)).norm_image_sub_le_of_norm_hasDerivWithin_le
    (f := fun s => y s - s • F (y t)) (f' := fun s => F (y s) - F (y t)) (C := L * (M * h))
    (fun s hs => by
      have a := (hy s (sub hs)).mono sub
      have b := (((hasDerivAt_id s).smul_const (F (y t))).hasDerivWithinAt (s := Icc t (t + h)))
      have e := a.fun_sub b
      simp only [one_smul, id] at e
      exact e)
    (fun s hs => by
      have hd : ‖y s - y t‖ ≤ M * h := (ht.slow t tm s (sub hs)).trans
        (mul_le_mul_of_nonneg_left (by rw [abs_of_nonneg (by linarith [hs.1])]; linarith [hs.2]) hM)
      exact (ht.lip t tm (y s) (y t) (hd.trans (by linarith)) (by simpa using hR.le)).trans
        (mul_le_mul_of_nonneg_left hd hL))
    (x := t) (y := t + h) ⟨le_rfl, by linarith⟩ ⟨by linarith, le_rfl⟩
  have e : y (t + h) - (y t + h • F (y t)) = (y (t + h) - (t + h) • F (y t)) - (y t - t • F (y t)) := by
    module
  rw [e]
  refine h1.trans (le_of_eq ?_)
  rw [add_sub_cancel_left, Real.norm_of_nonneg hh]
  ring

theorem lip_rk4_local (ht : Tube T R L M (fun _ => F) y) (hL : 0 ≤ L) (hM : 0 ≤ M) (hR : 0 < R)
    (hy : ∀ t ∈ Icc 0 T, HasDerivWithinAt y (F (y t)) (Icc 0 T) t) {t h : ℝ} (h0 : 0 ≤ t) (hh : 0 ≤ h)
    (hT : t + h ≤ T) (hsm : 4 * h * M ≤ R) :
    ‖y (t + h) - rk4V (fun _ => F) t h (y t)‖ ≤ 2 * (L * M) * h ^ 2 := by
  have tm : t ∈ Icc 0 T := ⟨h0, by linarith⟩
  have hv : ‖y t - y t‖ ≤ R / 2 := by simp; positivity
  have i1 : t ∈ Icc t (t + h) := ⟨le_rfl, by linarith⟩
  have hd : ∀ (c : ℝ) (k : E), 0 ≤ c → c ≤ h → ‖k‖ ≤ M →
      ‖F (y t + c • k) - F (y t)‖ ≤ L * (h * M) ∧ ‖F (y t + c • k)‖ ≤ M := by
    intro c k hc hch hk
    have n1 := ht.near hM h0 hh hT i1 hc hch hsm hv hk
    refine ⟨(ht.lip t tm _ _ n1 (by simpa using hR.le)).trans (mul_le_mul_of_nonneg_left ?_ hL),
      ht.bound t tm _ n1⟩
    rw [add_sub_cancel_left, norm_smul, Real.norm_of_nonneg hc]
    gcongr
  set k1 := F (y t) with hk1
  have b1 : ‖k1‖ ≤ M := ht.bound t tm _ (by simpa using hR.le)
  set k2 := F (y t + (h / 2) • k1) with hk2
  obtain ⟨d2, b2⟩ := hd (h / 2) k1 (by positivity) (by linarith) b1
  rw [← hk2] at d2 b2
  set k3 := F (y t + (h / 2) • k2) with hk3
  obtain ⟨d3, b3⟩ := hd (h / 2) k2 (by positivity) (by linarith) b2
  rw [← hk3] at d3 b3
  set k4 := F (y t + h • k3) with hk4
  obtain ⟨d4, -⟩ := hd h k3 hh le_rfl b3
  rw [← hk4] at d4
  have e1 := lip_exact ht hL hM hR hy h0 hh hT hsm
  rw [← hk1] at e1
  have e2 : y (t + h) - rk4V (fun _ => F) t h (y t) = (y (t + h) - (y t + h • k1)) -
      (h / 6) • ((2 : ℝ) • (k2 - k1) + (2 : ℝ) • (k3 - k1) + (k4 - k1)) := by
    simp only [rk4V, ← hk1, ← hk2, ← hk3, ← hk4]; module
  have two : ∀ (v : E) (B : ℝ), ‖v‖ ≤ B → ‖(2 : ℝ) • v‖ ≤ 2 * B := fun v B h => by
    rw [norm_smul]; norm_num; exact h
  have e3 := norm_add_le_of_le (norm_add_le_of_le (two _ _ d2) (two _ _ d3)) d4
  rw [e2]
  refine (norm_sub_le_of_le e1 (r₂ := h / 6 * (2 * (L * (h * M)) + 2 * (L * (h * M)) + L * (h * M))) ?_).trans ?_
  · rw [norm_smul, Real.norm_of_nonneg (by positivity)]
    exact mul_le_mul_of_nonneg_left e3 (by positivity)
  · nlinarith [mul_nonneg (mul_nonneg hL hM) (sq_nonneg h)]

/-- All states at which a step evaluates the right-hand side stay in the tube. -/
theorem rk4_stages (ht : Tube T R L M (fun _ => F) y) (hM : 0 ≤ M) (hR : 0 < R) {Ω : Set E}
    (hΩ : ∀ t ∈ Icc 0 T, ∀ u, ‖u - y t‖ ≤ R → u ∈ Ω) {t h : ℝ} {u : E} (h0 : 0 ≤ t) (hh : 0 ≤ h)
    (hT : t + h ≤ T) (hsm : 4 * h * M ≤ R) (hu : ‖u - y t‖ ≤ R / 2) :
    u ∈ Ω ∧ u + (h / 2) • F u ∈ Ω ∧ u + (h / 2) • F (u + (h / 2) • F u) ∈ Ω ∧
      u + h • F (u + (h / 2) • F (u + (h / 2) • F u)) ∈ Ω := by
  have tm : t ∈ Icc 0 T := ⟨h0, by linarith⟩
  have i1 : t ∈ Icc t (t + h) := ⟨le_rfl, by linarith⟩
  have nr : ∀ (c : ℝ) (k : E), 0 ≤ c → c ≤ h → ‖k‖ ≤ M → ‖u + c • k - y t‖ ≤ R := fun c k hc hch hk =>
    ht.near hM h0 hh hT i1 hc hch hsm hu hk
  have b1 : ‖F u‖ ≤ M := ht.bound t tm u (by linarith)
  have n2 := nr (h / 2) _ (by positivity) (by linarith) b1
  have b2 := ht.bound t tm _ n2
  have n3 := nr (h / 2) _ (by positivity) (by linarith) b2
  have b3 := ht.bound t tm _ n3
  have n4 := nr h _ hh le_rfl b3
  exact ⟨hΩ t tm _ (by linarith), hΩ t tm _ n2, hΩ t tm _ n3, hΩ t tm _ n4⟩

end

/-- A locally Lipschitz right-hand side: both methods converge with order one, and the states at which the
runs evaluate the right-hand side stay in any neighbourhood of the exact solution. -/
theorem lip_order {T : ℝ} (hT : 0 ≤ T) {F : E → E} {Ω : Set E} (hO : IsOpen Ω)
    (hF : ∀ u ∈ Ω, LipAt F u) {y : ℝ → E} (hΩ : ∀ t ∈ Icc 0 T, y t ∈ Ω)
    (hy : ∀ t ∈ Icc 0 T, HasDerivWithinAt y (F (y t)) (Icc 0 T) t) :
    ∃ D h0 : ℝ, 0 < h0 ∧ ∀ (h : ℝ) (n : ℕ), 0 < h → h ≤ h0 → n * h ≤ T →
      (∀ Φ, Φ = rk4V (fun _ => F) ∨ Φ = eulerV (fun _ => F) →
        (march Φ h n (y 0)).1 = n * h ∧ ‖(march Φ h n (y 0)).2 - y (n * h)‖ ≤ D * h ∧
        (march Φ h n (y 0)).2 ∈ Ω) ∧
      ((n + 1) * h ≤ T → ∀ u, u = (march (rk4V (fun _ => F)) h n (y 0)).2 →
        u ∈ Ω ∧ u + (h / 2) • F u ∈ Ω ∧ u + (h / 2) • F (u + (h / 2) • F u) ∈ Ω ∧
        u + h • F (u + (h / 2) • F (u + (h / 2) • F u)) ∈ Ω) := by
  obtain ⟨R, L, M, hR, hL, hM, tube, inside⟩ := lip_tube hO hF hΩ hy
  have sm : ∀ {h : ℝ}, 0 ≤ h → h ≤ min (R / (4 * M + 1)) (1 / (L + 1)) → 4 * h * M ≤ R ∧ h * L ≤ 1 := by
    intro h hh hle
    have l1 : h ≤ R / (4 * M + 1) := hle.trans (min_le_left _ _)
    have l2 : h ≤ 1 / (L + 1) := hle.trans (min_le_right _ _)
    rw [le_div_iff₀ (by positivity)] at l1 l2
    exact ⟨by nlinarith, by nlinarith⟩
  obtain ⟨D1, h1, h1p, c1⟩ := march_converges (q := 1) (r := R / 2) (L := 2 * L) (C := 2 * (L * M))
    (h1 := min (R / (4 * M + 1)) (1 / (L + 1))) le_rfl hT (by positivity) (by positivity) (by positivity)
    (by positivity) (Φ := rk4V (fun _ => F)) (y := y)
    (fun t h u ht hh hle hTh hu =>
      rk4_stable tube hR hL hM ht hh hTh (sm hh hle).1 (sm hh hle).2 hu)
    (fun t h ht hh hle hTh => lip_rk4_local tube hL hM hR hy ht hh hTh (sm hh hle).1)
  obtain ⟨D2, h2, h2p, c2⟩ := march_converges (q := 1) (r := R / 2) (L := L) (C := L * M)
    (h1 := min (R / (4 * M + 1)) (1 / (L + 1))) le_rfl hT (by positivity) (by positivity) hL
    (by positivity) (Φ := eulerV (fun _ => F)) (y := y)
    (fun t h u ht hh hle hTh hu => euler_stable tube hR ht hh hTh hu)
    (fun t h ht hh hle hTh => lip_exact tube hL hM hR hy ht hh hTh (sm hh hle).1)
  set D := max |D1| |D2| with hD
  have hD0 : 0 ≤ D := (abs_nonneg D1).trans (le_max_left _ _)
  refine ⟨D, min (min h1 h2) (min (min (R / (4 * M + 1)) (1 / (L + 1))) (R / 2 / (D + 1))),
    by positivity, fun h n hh hle hn => ?_⟩
  have l1 : h ≤ h1 := hle.trans ((min_le_left _ _).trans (min_le_left _ _))
  have l2 : h ≤ h2 := hle.trans ((min_le_left _ _).trans (min_le_right _ _))
  have l3 := hle.trans ((min_le_right _ _).trans (min_le_left _ _))
  have l4 := hle.trans ((min_le_right _ _).trans (min_le_right _ _))
  have small : D * h ≤ R / 2 := by
    rw [le_div_iff₀ (by positivity)] at l4
    nlinarith
  obtain ⟨a1, a2⟩ := c1 h n hh l1 hn
  obtain ⟨b1, b2⟩ := c2 h n hh l2 hn
  rw [pow_one] at a2 b2
  have a3 : ‖(march (rk4V (fun _ => F)) h n (y 0)).2 - y (n * h)‖ ≤ D * h :=
    a2.trans (mul_le_mul_of_nonneg_right ((le_abs_self D1).trans (le_max_left _ _)) hh.le)
  have b3 : ‖(march (eulerV (fun _ => F)) h n (y 0)).2 - y (n * h)‖ ≤ D * h :=
    b2.trans (mul_le_mul_of_nonneg_right ((le_abs_self D2).trans (le_max_right _ _)) hh.le)
  have tn : (n * h : ℝ) ∈ Icc 0 T := ⟨by positivity, hn⟩
  refine ⟨?_, fun hn1 u hu => ?_⟩
  · rintro Φ (rfl | rfl)
    · exact ⟨a1, a3, inside _ tn _ (by linarith)⟩
    · exact ⟨b1, b3, inside _ tn _ (by linarith)⟩
  · subst hu
    exact rk4_stages tube hM hR inside (t := n * h) (by positivity) hh.le (by linarith) (sm hh.le l3).1
      (a3.trans small)

/-- Local existence of the exact solution, inside of the open set. -/
theorem lip_exists [CompleteSpace E] {F : E → E} {Ω : Set E} (hO : IsOpen Ω) (hF : ∀ u ∈ Ω, LipAt F u)
    {u0 : E} (h0 : u0 ∈ Ω) :
    ∃ T > 0, ∃ y : ℝ → E, y 0 = u0 ∧ ∀ t ∈ Icc 0 T, y t ∈ Ω ∧ HasDerivWithinAt y (F (y t)) (Icc 0 T) t := by
  obtain ⟨K, s, hs, hlip⟩ := hF u0 h0
  obtain ⟨ε, hε, hsub⟩ := Metric.mem_nhds_iff.1 (inter_mem hs (hO.mem_nhds h0))
  have sub : Metric.closedBall u0 (ε / 2) ⊆ s ∩ Ω :=
    (Metric.closedBall_subset_ball (by linarith)).trans hsub
  let a : ℝ≥0 := ⟨ε / 2, by positivity⟩
  let N : ℝ≥0 := ⟨‖F u0‖ + K * (ε / 2) + 1, by positivity⟩
  have hN : ∀ x ∈ Metric.closedBall u0 (ε / 2), ‖F x‖ ≤ N := by
    intro x hx
    have h1 := hlip.dist_le_mul x (sub hx).1 u0 (hsub (Metric.mem_ball_self hε)).1
    have h2 : (K : ℝ) * dist x u0 ≤ K * (ε / 2) := mul_le_mul_of_nonneg_left (Metric.mem_closedBall.1 hx) K.2
    have h4 : ‖F x‖ ≤ ‖F u0‖ + ‖F x - F u0‖ := by
      have := norm_add_le (F u0) (F x - F u0)
      simpa using this
    rw [dist_eq_norm] at h1
    show ‖F x‖ ≤ ‖F u0‖ + K * (ε / 2) + 1
    linarith
  have Np : (0 : ℝ) < N := by
    show (0 : ℝ) < ‖F u0‖ + K * (ε / 2) + 1
    positivity
  set T : ℝ := (ε / 2) / N with hTdef
  have hT : 0 < T := by positivity
  have pl : IsPicardLindelof (fun _ => F) (⟨0, left_mem_Icc.2 hT.le⟩ : Icc 0 T) u0 a 0 N K :=
    { lipschitzOnWith := fun _ _ => hlip.mono fun x hx => (sub hx).1
      continuousOn := fun _ _ => continuousOn_const
      norm_le := fun _ _ x hx => hN x hx
      mul_max_le := by
        show (N : ℝ) * max (T - 0) (0 - 0) ≤ ε / 2 - ((0 : ℝ≥0) : ℝ)
        rw [sub_zero, sub_zero, max_eq_left hT.le, hTdef]
        simp only [NNReal.coe_zero, sub_zero]
        rw [mul_div_cancel₀ _ Np.ne'] }
  obtain ⟨y, y0, hy⟩ := pl.exists_eq_forall_mem_Icc_hasDerivWithinAt₀
  have y0' : y 0 = u0 := y0
  have hc : ContinuousWithinAt y (Icc 0 T) 0 := (hy 0 (left_mem_Icc.2 hT.le)).continuousWithinAt
  have hm : y ⁻¹' Ω ∈ 𝓝[Icc 0 T] 0 := hc (hO.mem_nhds (by rw [y0']; exact h0))
  obtain ⟨δ, hδ, hsubδ⟩ := Metric.mem_nhdsWithin_iff.1 hm
  refine ⟨min T (δ / 2), lt_min hT (by positivity), y, y0', fun t ht => ?_⟩
  have tT : t ∈ Icc 0 T := ⟨ht.1, ht.2.trans (min_le_left _ _)⟩
  refine ⟨hsubδ ⟨?_, tT⟩, (hy t tT).mono (Icc_subset_Icc le_rfl (min_le_left _ _))⟩
  rw [Metric.mem_ball, Real.dist_eq, sub_zero, abs_of_nonneg ht.1]
  exact lt_of_le_of_lt (ht.2.trans (min_le_right _ _)) (by linarith)

end DG
