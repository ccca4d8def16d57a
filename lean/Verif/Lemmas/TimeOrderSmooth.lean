import Verif.Lemmas.TimeOrderGlobal
import Mathlib.Analysis.Calculus.ContDiff.Deriv
import Mathlib.Analysis.Calculus.ContDiff.Operations
import Mathlib.Analysis.Calculus.IteratedDeriv.Lemmas
import Mathlib.Topology.MetricSpace.Thickening
import Mathlib.Analysis.Normed.Group.Bounded

/-!
Order of accuracy for a smooth right-hand side: the expansions exist, the tube exists.
-/
open Set Filter Asymptotics Topology
namespace DG
variable {E : Type*} [NormedAddCommGroup E] [NormedSpace ℝ E]

/-- Derivatives of a smooth function on `[0, T]`, and their bound. -/
theorem chain_of_contDiffOn {T : ℝ} (hT : 0 < T) {n : ℕ} {g : ℝ → E}
    (h : ContDiffOn ℝ n g (Icc 0 T)) :
    Chain T n (fun i => iteratedDerivWithin i g (Icc 0 T)) ∧
      ∃ M, ∀ i ≤ n, ∀ t ∈ Icc 0 T, ‖iteratedDerivWithin i g (Icc 0 T) t‖ ≤ M := by
  have hu : UniqueDiffOn ℝ (Icc 0 T) := uniqueDiffOn_Icc hT
  constructor
  · intro i hi t ht
    have h1 := h.differentiableOn_iteratedDerivWithin (m := i) (by exact_mod_cast hi) hu
    have h2 := (h1 t ht).hasDerivWithinAt
    simp only [iteratedDerivWithin_succ]
    exact h2
  · have h1 : ∀ i ∈ Finset.range (n + 1), ∃ M, ∀ t ∈ Icc 0 T, ‖iteratedDerivWithin i g (Icc 0 T) t‖ ≤ M := by
      intro i hi
      have hi' : i ≤ n := Nat.lt_succ_iff.1 (Finset.mem_range.1 hi)
      exact isCompact_Icc.exists_bound_of_continuousOn
        (h.continuousOn_iteratedDerivWithin (by exact_mod_cast hi') hu)
    choose! M hM using h1
    refine ⟨∑ i ∈ Finset.range (n + 1), |M i|, fun i hi t ht => ?_⟩
    have hi' : i ∈ Finset.range (n + 1) := Finset.mem_range.2 (by omega)
    exact (hM i hi' t ht).trans ((le_abs_self _).trans
      (Finset.single_le_sum (f := fun i => |M i|) (fun j _ => abs_nonneg _) hi'))

/-- A solution of a smooth equation is smooth. -/
theorem solution_contDiffOn {T : ℝ} (hT : 0 < T) {n : ℕ} {F : ℝ → E → E} {Ω : Set (ℝ × E)}
    (hF : ContDiffOn ℝ n (fun p : ℝ × E => F p.1 p.2) Ω) {y : ℝ → E}
    (hΩ : ∀ t ∈ Icc 0 T, (t, y t) ∈ Ω)
    (hy : ∀ t ∈ Icc 0 T, HasDerivWithinAt y (F t (y t)) (Icc 0 T) t) :
    ContDiffOn ℝ (n + 1) y (Icc 0 T) := by
  have hu : UniqueDiffOn ℝ (Icc 0 T) := uniqueDiffOn_Icc hT
  have key : ∀ k : ℕ, k ≤ n + 1 → ContDiffOn ℝ k y (Icc 0 T) := by
    intro k
    induction k with
    | zero =>
      intro _
      simpa using (contDiffOn_zero (𝕜 := ℝ)).2 fun t ht => (hy t ht).continuousWithinAt
    | succ k ih =>
      intro hk
      have hk' : (k : WithTop ℕ∞) ≤ n := by exact_mod_cast (by omega : k ≤ n)
      have i1 := ih (by omega)
      push_cast
      refine (contDiffOn_succ_iff_derivWithin hu).2
        ⟨fun t ht => (hy t ht).differentiableWithinAt, fun h => by simp at h, ?_⟩
      have h2 : ContDiffOn ℝ k (fun t => F t (y t)) (Icc 0 T) :=
        (hF.of_le hk').comp (contDiffOn_id.prodMk i1) fun t ht => hΩ t ht
      exact h2.congr fun t ht => (hy t ht).derivWithin (hu t ht)
  exact_mod_cast key (n + 1) le_rfl

/-- The tube around a solution of a smooth equation. -/
theorem exists_tube [ProperSpace E] {T : ℝ} {n : ℕ} (hn : 1 ≤ n) {F : ℝ → E → E}
    {Ω : Set (ℝ × E)} (hO : IsOpen Ω)
    (hF : ContDiffOn ℝ n (fun p : ℝ × E => F p.1 p.2) Ω) {y : ℝ → E}
    (hΩ : ∀ t ∈ Icc 0 T, (t, y t) ∈ Ω)
    (hy : ∀ t ∈ Icc 0 T, HasDerivWithinAt y (F t (y t)) (Icc 0 T) t) :
    ∃ R L M B : ℝ, 0 < R ∧ 0 ≤ L ∧ 0 ≤ M ∧ Tube T R L M F y ∧
      (2 ≤ n → ∀ t ∈ Icc 0 T, ∀ u, ‖u - y t‖ ≤ R →
        ‖F t u - F t (y t) - ((fderiv ℝ (fun p : ℝ × E => F p.1 p.2) (t, y t)).comp
          (ContinuousLinearMap.inr ℝ ℝ E)) (u - y t)‖ ≤ B * ‖u - y t‖ ^ 2) := by
  set G : ℝ × E → E := fun p => F p.1 p.2 with hG
  have cont : ContinuousOn y (Icc 0 T) := fun t ht => (hy t ht).continuousWithinAt
  have hK : IsCompact ((fun t => (t, y t)) '' Icc 0 T) :=
    isCompact_Icc.image_of_continuousOn (continuousOn_id.prodMk cont)
  have hKΩ : (fun t => (t, y t)) '' Icc 0 T ⊆ Ω := by
    rintro _ ⟨t, ht, rfl⟩; exact hΩ t ht
  obtain ⟨R, hR, hRΩ⟩ := hK.exists_cthickening_subset_open hO hKΩ
  have hC : IsCompact (Metric.cthickening R ((fun t => (t, y t)) '' Icc 0 T)) :=
    Metric.isCompact_of_isClosed_isBounded Metric.isClosed_cthickening hK.isBounded.cthickening
  set N := Metric.cthickening R ((fun t => (t, y t)) '' Icc 0 T) with hN
  have mem : ∀ t ∈ Icc 0 T, ∀ u, ‖u - y t‖ ≤ R → (t, u) ∈ N := by
    intro t ht u hu
    refine Metric.mem_cthickening_of_dist_le _ (t, y t) _ _ ⟨t, ht, rfl⟩ ?_
    rw [Prod.dist_eq]
    simpa [dist_eq_norm] using hu
  have hn1 : (1 : WithTop ℕ∞) ≤ n := by exact_mod_cast hn
  obtain ⟨M, hM⟩ := hC.exists_bound_of_continuousOn (hF.continuousOn.mono hRΩ)
  obtain ⟨L, hL⟩ := hC.exists_bound_of_continuousOn
    ((hF.continuousOn_fderiv_of_isOpen hO hn1).mono hRΩ)
  have dG : ∀ p ∈ N, DifferentiableAt ℝ G p := fun p hp =>
    (hF.differentiableOn (by positivity)).differentiableAt (hO.mem_nhds (hRΩ hp))
  have conv : ∀ t, Convex ℝ (({t} : Set ℝ) ×ˢ Metric.closedBall (y t) R) := fun t =>
    (convex_singleton t).prod (convex_closedBall _ _)
  have sub : ∀ t ∈ Icc 0 T, ({t} : Set ℝ) ×ˢ Metric.closedBall (y t) R ⊆ N := by
    rintro t ht ⟨s, u⟩ ⟨hs, hu⟩
    have hs' : s = t := hs
    subst hs'
    exact mem s ht u (by simpa [dist_eq_norm] using hu)
  have ball : ∀ (t : ℝ) (u : E), ‖u - y t‖ ≤ R → (t, u) ∈ ({t} : Set ℝ) ×ˢ Metric.closedBall (y t) R :=
    fun t u hu => ⟨rfl, by simpa [dist_eq_norm] using hu⟩
  have cen : ∀ t : ℝ, ‖y t - y t‖ ≤ R := fun t => by simpa using hR.le
  have nrm : ∀ (t : ℝ) (u v : E), ‖((t, u) : ℝ × E) - (t, v)‖ = ‖u - v‖ := fun t u v => by
    simp [Prod.norm_def]
  have tube : Tube T R |L| |M| F y := by
    refine ⟨fun t ht u hu => (hM _ (mem t ht u hu)).trans (le_abs_self M), ?_, ?_⟩
    · intro t ht u v hu hv
      have h := (conv t).norm_image_sub_le_of_norm_fderiv_le (f := G) (𝕜 := ℝ) (C := |L|)
        (fun p hp => dG p (sub t ht hp))
        (fun p hp => (hL p (sub t ht hp)).trans (le_abs_self L)) (ball t v hv) (ball t u hu)
      rwa [nrm] at h
    · intro t ht s hs
      have h := (convex_Icc 0 T).norm_image_sub_le_of_norm_hasDerivWithin_le (f := y) (C := |M|)
        (fun x hx => hy x hx)
        (fun x hx => (hM _ (mem x hx (y x) (cen x))).trans (le_abs_self M)) ht hs
      simpa using h
  by_cases h2 : 2 ≤ n
  · have hF1 : ContDiffOn ℝ 1 (fderiv ℝ G) Ω := hF.fderiv_of_isOpen hO (by norm_num; exact h2)
    obtain ⟨B, hB⟩ := hC.exists_bound_of_continuousOn
      ((hF1.continuousOn_fderiv_of_isOpen hO le_rfl).mono hRΩ)
    refine ⟨R, |L|, |M|, |B|, hR, abs_nonneg L, abs_nonneg M, tube, fun _ t ht u hu => ?_⟩
    have dD : ∀ p ∈ N, DifferentiableAt ℝ (fderiv ℝ G) p := fun p hp =>
      (hF1.differentiableOn (by simp)).differentiableAt (hO.mem_nhds (hRΩ hp))
    have lipD : ∀ v, ‖v - y t‖ ≤ ‖u - y t‖ →
        ‖fderiv ℝ G (t, v) - fderiv ℝ G (t, y t)‖ ≤ |B| * ‖u - y t‖ := by
      intro v hv
      have h := (conv t).norm_image_sub_le_of_norm_fderiv_le (f := fderiv ℝ G) (𝕜 := ℝ) (C := |B|)
        (fun p hp => dD p (sub t ht hp))
        (fun p hp => (hB p (sub t ht hp)).trans (le_abs_self B)) (ball t (y t) (cen t))
        (ball t v (hv.trans hu))
      rw [nrm] at h
      exact h.trans (mul_le_mul_of_nonneg_left hv (abs_nonneg B))
    have h := ((convex_singleton t).prod (convex_closedBall (y t) ‖u - y t‖)).norm_image_sub_le_of_norm_fderiv_le'
      (f := G) (𝕜 := ℝ) (C := |B| * ‖u - y t‖) (φ := fderiv ℝ G (t, y t)) (x := (t, y t)) (y := (t, u))
      (s := ({t} : Set ℝ) ×ˢ Metric.closedBall (y t) ‖u - y t‖)
      (by
        rintro ⟨s, v⟩ ⟨hs, hv⟩
        have hs' : s = t := hs
        subst hs'
        exact dG _ (mem s ht v ((by simpa [dist_eq_norm] using hv : ‖v - y s‖ ≤ ‖u - y s‖).trans hu)))
      (by
        rintro ⟨s, v⟩ ⟨hs, hv⟩
        have hs' : s = t := hs
        subst hs'
        exact lipD v (by simpa [dist_eq_norm] using hv))
      ⟨rfl, by simp⟩ ⟨rfl, by simp [dist_eq_norm]⟩
    rw [nrm] at h
    have e : ((t, u) : ℝ × E) - (t, y t) = ContinuousLinearMap.inr ℝ ℝ E (u - y t) := by
      simp
    rw [e] at h
    refine h.trans (le_of_eq (by ring))
  · exact ⟨R, |L|, |M|, 0, hR, abs_nonneg L, abs_nonneg M, tube, fun h => absurd h h2⟩

/-- Runge-Kutta: order four. -/
theorem rk4_order [ProperSpace E] {T : ℝ} (hT : 0 < T) {F : ℝ → E → E} {Ω : Set (ℝ × E)}
    (hO : IsOpen Ω) (hF : ContDiffOn ℝ 4 (fun p : ℝ × E => F p.1 p.2) Ω) {y : ℝ → E}
    (hΩ : ∀ t ∈ Icc 0 T, (t, y t) ∈ Ω)
    (hy : ∀ t ∈ Icc 0 T, HasDerivWithinAt y (F t (y t)) (Icc 0 T) t) :
    ∃ D h0 : ℝ, 0 < h0 ∧ ∀ (h : ℝ) (n : ℕ), 0 < h → h ≤ h0 → n * h ≤ T →
      (march (rk4V F) h n (y 0)).1 = n * h ∧
      ‖(march (rk4V F) h n (y 0)).2 - y (n * h)‖ ≤ D * h ^ 4 := by
  have hF' : ContDiffOn ℝ (4 : ℕ) (fun p : ℝ × E => F p.1 p.2) Ω := hF
  obtain ⟨R, L, M, B, hR, hL, hM, tube, hB⟩ := exists_tube (n := 4) (by norm_num) hO hF' hΩ hy
  have hys : ContDiffOn ℝ (5 : ℕ) y (Icc 0 T) := by
    have := solution_contDiffOn (n := 4) hT hF' hΩ hy
    exact_mod_cast this
  obtain ⟨cy, My, hMy⟩ := chain_of_contDiffOn hT hys
  set J : ℝ → E →L[ℝ] E := fun t => (fderiv ℝ (fun p : ℝ × E => F p.1 p.2) (t, y t)).comp
    (ContinuousLinearMap.inr ℝ ℝ E) with hJdef
  have hJs : ContDiffOn ℝ (2 : ℕ) J (Icc 0 T) := by
    have h1 : ContDiffOn ℝ (2 : ℕ) (fderiv ℝ (fun p : ℝ × E => F p.1 p.2)) Ω :=
      hF'.fderiv_of_isOpen hO (by norm_num)
    have h2 : ContDiffOn ℝ (2 : ℕ) (fun t => fderiv ℝ (fun p : ℝ × E => F p.1 p.2) (t, y t)) (Icc 0 T) :=
      h1.comp (contDiffOn_id.prodMk (hys.of_le (by norm_num))) fun t ht => hΩ t ht
    exact h2.clm_comp contDiffOn_const
  obtain ⟨cJ, MJ, hMJ⟩ := chain_of_contDiffOn hT hJs
  have y0 : (fun i => iteratedDerivWithin i y (Icc 0 T)) 0 = y := by
    funext t; simp
  have J0 : (fun i => iteratedDerivWithin i J (Icc 0 T)) 0 = J := by
    funext t; simp
  have loc := rk4_local (M := max My MJ) (F := F) (r := R) (B := B) hR cy
    (fun i hi t ht => (hMy i hi t ht).trans (le_max_left _ _))
    (fun t ht => by
      simp only [y0, iteratedDerivWithin_one]
      exact ((hy t ht).derivWithin (uniqueDiffOn_Icc hT t ht)).symm)
    cJ (fun i hi t ht => (hMJ i hi t ht).trans (le_max_right _ _))
    (fun t ht u hu => by
      simp only [y0, J0] at hu ⊢
      exact hB (by norm_num) t ht u hu)
  simp only [y0] at loc
  obtain ⟨C, h1, hC, h1p, hloc⟩ := smallSteps_bound loc
  refine march_converges (r := R / 2) (L := 2 * L) (C := C) (h1 := min h1 (min (R / (4 * M + 1)) (1 / (L + 1))))
    (by norm_num) hT.le (by positivity) (by positivity) (by positivity) hC ?_ ?_
  · intro t h u ht hh hle hTh hu
    have l1 : h ≤ R / (4 * M + 1) := hle.trans ((min_le_right _ _).trans (min_le_left _ _))
    have l2 : h ≤ 1 / (L + 1) := hle.trans ((min_le_right _ _).trans (min_le_right _ _))
    rw [le_div_iff₀ (by positivity)] at l1 l2
    exact rk4_stable tube hR hL hM ht hh hTh (by nlinarith) (by nlinarith) hu
  · intro t h ht hh hle hTh
    exact hloc t h ht hh (hle.trans (min_le_left _ _)) hTh

/-- Forward Euler: order one. -/
theorem euler_order [ProperSpace E] {T : ℝ} (hT : 0 < T) {F : ℝ → E → E} {Ω : Set (ℝ × E)}
    (hO : IsOpen Ω) (hF : ContDiffOn ℝ 1 (fun p : ℝ × E => F p.1 p.2) Ω) {y : ℝ → E}
    (hΩ : ∀ t ∈ Icc 0 T, (t, y t) ∈ Ω)
    (hy : ∀ t ∈ Icc 0 T, HasDerivWithinAt y (F t (y t)) (Icc 0 T) t) :
    ∃ D h0 : ℝ, 0 < h0 ∧ ∀ (h : ℝ) (n : ℕ), 0 < h → h ≤ h0 → n * h ≤ T →
      (march (eulerV F) h n (y 0)).1 = n * h ∧
      ‖(march (eulerV F) h n (y 0)).2 - y (n * h)‖ ≤ D * h ^ 1 := by
  have hF' : ContDiffOn ℝ (1 : ℕ) (fun p : ℝ × E => F p.1 p.2) Ω := by exact_mod_cast hF
  obtain ⟨R, L, M, _, hR, hL, hM, tube, _⟩ := exists_tube (n := 1) le_rfl hO hF' hΩ hy
  have hys : ContDiffOn ℝ (2 : ℕ) y (Icc 0 T) := by
    have := solution_contDiffOn (n := 1) hT hF' hΩ hy
    exact_mod_cast this
  obtain ⟨cy, My, hMy⟩ := chain_of_contDiffOn hT hys
  have y0 : (fun i => iteratedDerivWithin i y (Icc 0 T)) 0 = y := by
    funext t; simp
  have loc := euler_local (F := F) cy hMy
    (fun t ht => by
      simp only [y0, iteratedDerivWithin_one]
      exact ((hy t ht).derivWithin (uniqueDiffOn_Icc hT t ht)).symm)
  simp only [y0] at loc
  obtain ⟨C, h1, hC, h1p, hloc⟩ := smallSteps_bound loc
  refine march_converges (r := R / 2) (L := L) (C := C) (h1 := h1)
    le_rfl hT.le (by positivity) h1p hL hC ?_ ?_
  · intro t h u ht hh _ hTh hu
    exact euler_stable tube hR ht hh hTh hu
  · intro t h ht hh hle hTh
    exact hloc t h ht hh hle hTh

end DG
