import Verif.Lemmas.Physics
import Mathlib.Analysis.Calculus.Deriv.Inv
import Mathlib.Analysis.Calculus.Deriv.Mul
import Mathlib.Analysis.Calculus.Deriv.Add
import Mathlib.Tactic.NormNum

/-! C31–C33: numerical fluxes, pressure and wave speed. -/
namespace DG
open Finset

/-! ### C33: pressure, wave speed, physical flux -/

/-- C33: the pressure routine returns `(γ-1)` times the internal energy on every state of nonzero
density, and does not divide by zero exactly then. -/
theorem C33_pressure (dim : ℕ) (γ : ℝ) (U : ℕ → ℝ) :
    (U 0 ≠ 0 → getPressure dim γ U = some ((γ - 1) * internalEnergy dim U)) ∧
    (U 0 = 0 → getPressure dim γ U = none) :=
  ⟨getPressure_eq dim γ U, fun h => by simp [getPressure, cdiv, h]⟩

/-- C33: for `γ > 1` the returned pressure is positive exactly when the internal energy is. -/
theorem C33_pressure_positive (dim : ℕ) (γ p : ℝ) (U : ℕ → ℝ) (hγ : 1 < γ)
    (h : getPressure dim γ U = some p) : 0 < p ↔ 0 < internalEnergy dim U := by
  obtain ⟨-, rfl⟩ := getPressure_some h
  exact mul_pos_iff_of_pos_left (by linarith)

/-- C33: the wave-speed routine is defined on admissible states, is positive, and bounds the speed
of sound waves in every unit direction `n`: `|v·n| + c ≤ a`. -/
theorem C33_wave_speed_bound (dim : ℕ) (γ : ℝ) (U : ℕ → ℝ) (hγ : 1 < γ) (h : Admissible dim γ U) :
    ∃ a, eulerMaxWaveSpeed dim γ U = some a ∧ 0 < a ∧ ∀ n, inner' dim n n = 1 →
      |inner' dim (vel U) n| + soundSpeed dim γ U ≤ a := by
  have hp := h.p_pos
  refine ⟨_, eulerMaxWaveSpeed_eq dim γ U h.ρ_pos (by positivity), ?_, fun n hn => ?_⟩
  · have := soundSpeed_pos hγ h
    positivity
  · have := inner_sq_le dim (vel U) n
    rw [hn, mul_one] at this
    have := Real.abs_le_sqrt this
    linarith

/-- `lam` is a characteristic speed of the Euler equations at `U` in direction `n`: an eigenvalue of
the derivative of the flux. -/
def IsCharSpeed (dim : ℕ) (γ : ℝ) (U n : ℕ → ℝ) (lam : ℝ) : Prop :=
  ∃ r : ℕ → ℝ, (∃ s < dim + 2, r s ≠ 0) ∧ ∀ s < dim + 2,
    HasDerivAt (fun t => eulerFlux dim γ (fun k => U k + t * r k) n s) (lam * r s) 0

theorem charSpeed_cases (dim : ℕ) (γ : ℝ) (U n : ℕ → ℝ) (lam : ℝ) (hU : U 0 ≠ 0)
    (hn : inner' dim n n = 1) (h : IsCharSpeed dim γ U n lam) :
    lam = inner' dim (vel U) n ∨ (lam - inner' dim (vel U) n) ^ 2 * U 0 = γ * pressure dim γ U := by
  obtain ⟨r, ⟨s0, hs0, hr⟩, hd⟩ := h
  -- derivatives of the primitive variables
  have dlin : ∀ k, HasDerivAt (fun t : ℝ => U k + t * r k) (r k) 0 := fun k => by
    simpa using ((hasDerivAt_id (0 : ℝ)).mul_const (r k)).const_add (U k)
  set dv : ℕ → ℝ := fun i => (r (i + 1) * U 0 - U (i + 1) * r 0) / U 0 ^ 2 with hdv
  have dvel : ∀ i, HasDerivAt (fun t : ℝ => vel (fun k => U k + t * r k) i) (dv i) 0 := fun i => by
    have := (dlin (i + 1)).div (dlin 0) (by simpa using hU)
    refine HasDerivAt.congr_deriv (f := fun t : ℝ => vel (fun k => U k + t * r k) i) this ?_
    simp [hdv]
  set u := inner' dim (vel U) n with hu
  set du := inner' dim dv n with hdu
  have v0 : ∀ i, vel (fun k => U k + 0 * r k) i = vel U i := fun i => by simp [vel]
  have dun : HasDerivAt (fun t : ℝ => inner' dim (vel fun k => U k + t * r k) n) du 0 :=
    HasDerivAt.fun_sum fun i _ => (dvel i).mul_const (n i)
  have dvv : HasDerivAt (fun t : ℝ => inner' dim (vel fun k => U k + t * r k)
      (vel fun k => U k + t * r k)) (2 * inner' dim (vel U) dv) 0 := by
    have := HasDerivAt.fun_sum (u := range dim) fun i _ => (dvel i).mul (dvel i)
    refine this.congr_deriv ?_
    simp only [inner', mul_sum, v0]
    exact sum_congr rfl fun i _ => by ring
  set w := inner' dim (vel U) dv with hw
  set vv := inner' dim (vel U) (vel U) with hvv
  set p := pressure dim γ U with hp
  set dp := (γ - 1) * (r (dim + 1) - (1 / 2 * r 0 * vv + U 0 * w)) with hdp
  have hvv0 : inner' dim (vel fun k => U k + 0 * r k) (vel fun k => U k + 0 * r k) = vv := by
    simp only [inner', v0, hvv]
  have hu0 : inner' dim (vel fun k => U k + 0 * r k) n = u := by simp only [inner', v0, hu]
  have dpr : HasDerivAt (fun t : ℝ => pressure dim γ fun k => U k + t * r k) dp 0 := by
    have h1 := (((dlin 0).const_mul (1 / 2)).mul dvv)
    have := ((dlin (dim + 1)).sub h1).const_mul (γ - 1)
    refine this.congr_deriv ?_
    rw [hvv0, hdp]; simp only [zero_mul, add_zero]; ring
  have hp0 : pressure dim γ (fun k => U k + 0 * r k) = p := by simp [hp]
  -- the three equations
  have e0 : r 0 * u + U 0 * du = lam * r 0 := by
    have h1 := hd 0 (by omega)
    simp only [eulerFlux, if_true] at h1
    have := h1.unique ((dlin 0).mul dun)
    rw [this, hu0]; simp
  have ei : ∀ i < dim, r (i + 1) * u + U (i + 1) * du + dp * n i = lam * r (i + 1) := by
    intro i hi
    have h1 := hd (i + 1) (by omega)
    simp only [eulerFlux, Nat.succ_ne_zero, if_false, show i + 1 < dim + 1 by omega, if_true,
      Nat.add_sub_cancel] at h1
    have := h1.unique (((dlin (i + 1)).mul dun).add (dpr.mul_const (n i)))
    rw [this, hu0]; simp
  have eE : (r (dim + 1) + dp) * u + (U (dim + 1) + p) * du = lam * r (dim + 1) := by
    have h1 := hd (dim + 1) (by omega)
    simp only [eulerFlux, Nat.succ_ne_zero, if_false, Nat.lt_irrefl] at h1
    have := h1.unique (((dlin (dim + 1)).add dpr).mul dun)
    rw [this, hu0]
    simp only [Pi.add_apply, hp0]; simp
  by_cases hμ : lam = u
  · exact .inl hμ
  right
  have hμ' : lam - u ≠ 0 := sub_ne_zero.mpr hμ
  have hri : ∀ i, r (i + 1) = U 0 * dv i + vel U i * r 0 := fun i => by
    simp only [hdv, vel]; field_simp; ring
  have hUi : ∀ i, U (i + 1) = U 0 * vel U i := fun i => by simp only [vel]; field_simp
  have e0' : U 0 * du = (lam - u) * r 0 := by linarith
  have ei' : ∀ i < dim, (lam - u) * U 0 * dv i = dp * n i := by
    intro i hi
    have := ei i hi
    rw [hri i, hUi i] at this
    linear_combination (-1) * this + vel U i * e0'
  have s1 : (lam - u) * U 0 * du = dp := by
    have : (lam - u) * U 0 * du = ∑ i ∈ range dim, dp * (n i * n i) := by
      rw [hdu, inner', mul_sum]
      exact sum_congr rfl fun i hi => by
        rw [← mul_assoc, ei' i (mem_range.mp hi)]; ring
    rw [this, ← mul_sum, show ∑ i ∈ range dim, n i * n i = inner' dim n n from rfl, hn, mul_one]
  have s2 : (lam - u) * U 0 * w = dp * u := by
    have hu' : dp * u = ∑ i ∈ range dim, dp * (vel U i * n i) := by rw [hu, inner', mul_sum]
    rw [hu', hw, inner', mul_sum]
    exact sum_congr rfl fun i hi => by
      have := ei' i (mem_range.mp hi)
      linear_combination vel U i * this
  have hpE : p = (γ - 1) * (U (dim + 1) - 1 / 2 * U 0 * vv) := rfl
  have key : (lam - u) * dp = γ * p * du := by
    have e1 : (lam - u) * dp = (γ - 1) * ((lam - u) * r (dim + 1) - 1 / 2 * vv * ((lam - u) * r 0)
        - (lam - u) * U 0 * w) := by rw [hdp]; ring
    rw [e1, s2, ← e0']
    have e2 : (lam - u) * r (dim + 1) = dp * u + (U (dim + 1) + p) * du := by linarith
    rw [e2]
    linear_combination (-du) * hpE
  by_cases hdu0 : du = 0
  · exfalso
    have hdp0 : dp = 0 := by rw [← s1, hdu0, mul_zero]
    have hr0 : r 0 = 0 := by
      rw [hdu0, mul_zero] at e0'
      exact (mul_eq_zero.mp e0'.symm).resolve_left hμ'
    have hrE : r (dim + 1) = 0 := by
      rw [hdp0, hdu0] at eE
      have : (lam - u) * r (dim + 1) = 0 := by linarith
      exact (mul_eq_zero.mp this).resolve_left hμ'
    apply hr
    rcases Nat.eq_zero_or_pos s0 with rfl | h0
    · exact hr0
    by_cases h1 : s0 = dim + 1
    · rw [h1]; exact hrE
    obtain ⟨i, rfl⟩ : ∃ i, s0 = i + 1 := ⟨s0 - 1, by omega⟩
    have := ei' i (by omega)
    rw [hdp0, zero_mul] at this
    rw [hri i, hr0, (mul_eq_zero.mp this).resolve_left (mul_ne_zero hμ' hU)]; ring
  · have : ((lam - u) ^ 2 * U 0 - γ * p) * du = 0 := by
      rw [← s1] at key; linear_combination key
    rcases mul_eq_zero.mp this with h | h
    · linarith
    · exact absurd h hdu0

/-- C33: every characteristic speed, in every unit direction, is at most the maximum wave speed in
absolute value. -/
theorem C33_characteristics (dim : ℕ) (γ a lam : ℝ) (U n : ℕ → ℝ) (hγ : 1 < γ)
    (h : Admissible dim γ U) (hn : inner' dim n n = 1) (hc : IsCharSpeed dim γ U n lam)
    (ha : eulerMaxWaveSpeed dim γ U = some a) : |lam| ≤ a := by
  obtain ⟨a', ha', -, hb⟩ := C33_wave_speed_bound dim γ U hγ h
  obtain rfl : a' = a := by simpa [ha] using ha'.symm
  refine le_trans ?_ (hb n hn)
  have hρ := h.ρ_pos
  have hp := h.p_pos
  have hs : 0 ≤ soundSpeed dim γ U := (soundSpeed_pos hγ h).le
  rcases charSpeed_cases dim γ U n lam h.ρ_pos.ne' hn hc with e | e
  · rw [e]; linarith
  · have h1 : |lam - inner' dim (vel U) n| ≤ soundSpeed dim γ U := by
      apply Real.abs_le_sqrt
      rw [le_div_iff₀ hρ, e]
    have h2 : |lam| ≤ |inner' dim (vel U) n| + |lam - inner' dim (vel U) n| := by
      have := abs_add_le (inner' dim (vel U) n) (lam - inner' dim (vel U) n)
      simpa using this
    linarith

/-- C33: the directional fluxes written by the interior flux routine, dotted with any normal, are
the mass, momentum and energy flux through a surface with that normal; every entry is written. -/
theorem C33_flux (dim : ℕ) (hd : dim = 2 ∨ dim = 3) (γ : ℝ) (U F0 : ℕ → ℝ) (h : U 0 ≠ 0) :
    ∃ Fq, convFlux dim γ U F0 = some Fq ∧ ∀ N s, s < dim + 2 →
      ∑ d ∈ range dim, Fq (s + d * (dim + 2)) * N d = eulerFlux dim γ U N s :=
  convFlux_dot dim hd γ U F0 h

/-! A state used to show that hypotheses can be met: density 1.4, velocity (3, 0, …), pressure 1. -/

/-- density 1.4, velocity `(u, 0, …)`, pressure 1, for γ = 1.4 -/
noncomputable def exGas (dim : ℕ) (u : ℝ) : ℕ → ℝ := fun k =>
  if k = 0 then 7 / 5 else if k = 1 then 7 / 5 * u else if k = dim + 1 then 5 / 2 + 7 / 10 * u ^ 2 else 0

theorem exGas_inner (dim : ℕ) (hd : 0 < dim) (u : ℝ) (b : ℕ → ℝ) :
    inner' dim (vel (exGas dim u)) b = u * b 0 := by
  unfold inner'
  rw [sum_eq_single 0]
  · simp [vel, exGas]
  · intro i hi h0
    have := mem_range.mp hi
    simp only [vel, exGas, Nat.succ_ne_zero, if_false, show i + 1 ≠ 1 by omega,
      show i + 1 ≠ dim + 1 by omega]
    simp
  · intro h; exact absurd (mem_range.mpr hd) h

theorem exGas_pressure (dim : ℕ) (hd : 0 < dim) (u : ℝ) :
    pressure dim (7 / 5) (exGas dim u) = 1 := by
  have : vel (exGas dim u) 0 = u := by simp [vel, exGas]
  rw [pressure, internalEnergy, exGas_inner dim hd, this]
  simp only [exGas, Nat.succ_ne_zero, if_false, if_true, show ¬ (dim + 1 = 1) by omega]
  ring

theorem exGas_admissible (dim : ℕ) (hd : 0 < dim) (u : ℝ) :
    Admissible dim (7 / 5) (exGas dim u) :=
  ⟨by norm_num [exGas], by rw [exGas_pressure dim hd]; norm_num⟩

theorem exGas_sound (dim : ℕ) (hd : 0 < dim) (u : ℝ) : soundSpeed dim (7 / 5) (exGas dim u) = 1 := by
  rw [soundSpeed, exGas_pressure dim hd]; norm_num [exGas]

/-! ### C31: Lax–Friedrichs -/

/-- C31: the Lax–Friedrichs flux is defined for all admissible states and every nonzero normal. -/
theorem C31_defined (dim : ℕ) (hd : dim = 2 ∨ dim = 3) (γ : ℝ) (hγ : 1 < γ)
    (UL UR N Fq0 F0 : ℕ → ℝ) (hL : Admissible dim γ UL) (hR : Admissible dim γ UR)
    (hN : inner' dim N N ≠ 0) : ∃ F, laxFriedrichs dim γ UL UR N Fq0 F0 = some F := by
  obtain ⟨aL, h1, -⟩ := C33_wave_speed_bound dim γ UL hγ hL
  obtain ⟨aR, h2, -⟩ := C33_wave_speed_bound dim γ UR hγ hR
  exact laxFriedrichs_defined dim hd γ aL aR UL UR N Fq0 F0 hN h1 h2

/-- C31: with equal states the flux is the physical flux dotted with the normal, whatever the
output and work arrays held. -/
theorem C31_consistent (dim : ℕ) (γ : ℝ) (U N Fq0 F0 F : ℕ → ℝ)
    (h : laxFriedrichs dim γ U U N Fq0 F0 = some F) :
    ∀ s < dim + 2, F s = eulerFlux dim γ U N s := by
  obtain ⟨-, -, -, -, aL, aR, -, -, hF⟩ := laxFriedrichs_spec h
  intro s hs
  rw [hF s hs]; ring

/-- C31: swapping the two states and negating the normal negates the flux. -/
theorem C31_conservative (dim : ℕ) (γ : ℝ) (UL UR N Fq0 F0 Fq1 F1 F : ℕ → ℝ)
    (h : laxFriedrichs dim γ UL UR N Fq0 F0 = some F) :
    ∃ G, laxFriedrichs dim γ UR UL (fun i => - N i) Fq1 F1 = some G ∧
      ∀ s < dim + 2, G s = - F s := by
  obtain ⟨hd, -, -, hN, aL, aR, hL, hR, hF⟩ := laxFriedrichs_spec h
  have hNN : inner' dim (fun i => - N i) (fun i => - N i) = inner' dim N N := by simp [inner']
  obtain ⟨G, hG⟩ := laxFriedrichs_defined dim hd γ aR aL UR UL (fun i => - N i) Fq1 F1
    (by rwa [hNN]) hR hL
  refine ⟨G, hG, fun s hs => ?_⟩
  obtain ⟨-, -, -, -, aL', aR', hL', hR', hG'⟩ := laxFriedrichs_spec hG
  obtain rfl : aL' = aR := by simpa [hR] using hL'.symm
  obtain rfl : aR' = aL := by simpa [hL] using hR'.symm
  rw [hG' s hs, hF s hs, eulerFlux_neg, eulerFlux_neg, hNN, max_comm]
  ring

/-- C31: scaling the normal by `c > 0` scales the flux by `c`. -/
theorem C31_homogeneous (dim : ℕ) (γ c : ℝ) (hc : 0 < c) (UL UR N Fq0 F0 Fq1 F1 F : ℕ → ℝ)
    (h : laxFriedrichs dim γ UL UR N Fq0 F0 = some F) :
    ∃ G, laxFriedrichs dim γ UL UR (fun i => c * N i) Fq1 F1 = some G ∧
      ∀ s < dim + 2, G s = c * F s := by
  obtain ⟨hd, -, -, hN, aL, aR, hL, hR, hF⟩ := laxFriedrichs_spec h
  have hNN : inner' dim (fun i => c * N i) (fun i => c * N i) = c ^ 2 * inner' dim N N := by
    rw [inner_smul_left, inner_smul_right]; ring
  obtain ⟨G, hG⟩ := laxFriedrichs_defined dim hd γ aL aR UL UR (fun i => c * N i) Fq1 F1
    (by rw [hNN]; positivity) hL hR
  refine ⟨G, hG, fun s hs => ?_⟩
  obtain ⟨-, -, -, -, aL', aR', hL', hR', hG'⟩ := laxFriedrichs_spec hG
  obtain rfl : aL' = aL := by simpa [hL] using hL'.symm
  obtain rfl : aR' = aR := by simpa [hR] using hR'.symm
  rw [hG' s hs, hF s hs, eulerFlux_smul, eulerFlux_smul, hNN, Real.sqrt_mul (sq_nonneg c),
    Real.sqrt_sq hc.le]
  ring

/-- C31: the flux is the mean of the two physical fluxes minus `|N|/2` times a dissipation speed
times the jump, and that speed is at least every signal speed `|v·n| + c` of both states. -/
theorem C31_dissipation (dim : ℕ) (γ : ℝ) (hγ : 1 < γ) (UL UR N Fq0 F0 F : ℕ → ℝ)
    (hL : Admissible dim γ UL) (hR : Admissible dim γ UR)
    (h : laxFriedrichs dim γ UL UR N Fq0 F0 = some F) :
    ∃ a, (∀ n, inner' dim n n = 1 → |inner' dim (vel UL) n| + soundSpeed dim γ UL ≤ a ∧
        |inner' dim (vel UR) n| + soundSpeed dim γ UR ≤ a) ∧
      ∀ s < dim + 2, F s = (eulerFlux dim γ UL N s + eulerFlux dim γ UR N s) / 2
        - Real.sqrt (inner' dim N N) / 2 * a * (UR s - UL s) := by
  obtain ⟨hd, -, -, hN, aL, aR, eL, eR, hF⟩ := laxFriedrichs_spec h
  obtain ⟨_, e1, -, b1⟩ := C33_wave_speed_bound dim γ UL hγ hL
  obtain rfl := Option.some_inj.mp (eL.symm.trans e1)
  obtain ⟨_, e2, -, b2⟩ := C33_wave_speed_bound dim γ UR hγ hR
  obtain rfl := Option.some_inj.mp (eR.symm.trans e2)
  refine ⟨max aL aR, fun n hn => ⟨(b1 n hn).trans (le_max_left _ _),
    (b2 n hn).trans (le_max_right _ _)⟩, fun s hs => ?_⟩
  rw [hF s hs]; ring

/-- the hypotheses are met by two different supersonic states in 2D and 3D -/
example : (∃ F, laxFriedrichs 2 (7/5) (exGas 2 3) (exGas 2 (-3)) (fun i => if i = 0 then 2 else 1)
      0 0 = some F) ∧
    ∃ F, laxFriedrichs 3 (7/5) (exGas 3 3) (exGas 3 (-3)) (fun i => if i = 0 then 2 else 1)
      0 0 = some F := by
  constructor
  · exact C31_defined 2 (.inl rfl) _ (by norm_num) _ _ _ _ _ (exGas_admissible 2 (by norm_num) _)
      (exGas_admissible 2 (by norm_num) _) (by norm_num [inner', sum_range_succ])
  · exact C31_defined 3 (.inr rfl) _ (by norm_num) _ _ _ _ _ (exGas_admissible 3 (by norm_num) _)
      (exGas_admissible 3 (by norm_num) _) (by norm_num [inner', sum_range_succ])

end DG
