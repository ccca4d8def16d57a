import Verif.Model.Physics
import Verif.Spec.Euler
import Verif.Lemmas.LinAlg
import Mathlib.Tactic.FieldSimp
import Mathlib.Tactic.Linarith
import Mathlib.Tactic.Positivity
import Mathlib.Tactic.LinearCombination
import Mathlib.Tactic.IntervalCases

/-! The physics routines compute the quantities of `Spec/Euler.lean`. -/
namespace DG
open Finset

theorem cdiv_some {x y z : ℝ} (h : cdiv x y = some z) : y ≠ 0 ∧ z = x / y := by
  unfold cdiv at h; split_ifs at h with h0; exact ⟨h0, by simpa using h.symm⟩
theorem cdiv_ne {x y : ℝ} (h : y ≠ 0) : cdiv x y = some (x / y) := by simp [cdiv, h]
theorem csqrt_some {x z : ℝ} (h : csqrt x = some z) : 0 ≤ x ∧ z = Real.sqrt x := by
  unfold csqrt at h; split_ifs at h with h0; exact ⟨not_lt.mp h0, by simpa using h.symm⟩
theorem csqrt_nn {x : ℝ} (h : 0 ≤ x) : csqrt x = some (Real.sqrt x) := by simp [csqrt, not_lt.mpr h]

theorem mathDot_eq (n : ℕ) (a b : ℕ → ℝ) : mathDot n a b = inner' n a b := by
  unfold mathDot inner'
  split
  · simp [dot2, sum_range_succ]
  · simp [dot3, sum_range_succ]
  · simp [dot4, sum_range_succ]
  · simp [dot5, sum_range_succ]
  · simp [dotN, loopSum_eq]

theorem inner_nonneg (n : ℕ) (a : ℕ → ℝ) : 0 ≤ inner' n a a :=
  sum_nonneg fun i _ => mul_self_nonneg (a i)

theorem inner_smul_left (n : ℕ) (a b : ℕ → ℝ) (c : ℝ) :
    inner' n (fun i => c * a i) b = c * inner' n a b := by
  simp [inner', mul_sum, mul_assoc]
theorem inner_smul_right (n : ℕ) (a b : ℕ → ℝ) (c : ℝ) :
    inner' n a (fun i => c * b i) = c * inner' n a b := by
  simp only [inner', mul_sum]; exact sum_congr rfl fun i _ => by ring
theorem inner_neg_right (n : ℕ) (a b : ℕ → ℝ) : inner' n a (fun i => - b i) = - inner' n a b := by
  simp [inner']
theorem inner_comm (n : ℕ) (a b : ℕ → ℝ) : inner' n a b = inner' n b a :=
  sum_congr rfl fun i _ => mul_comm _ _

/-- Cauchy–Schwarz -/
theorem inner_sq_le (n : ℕ) (a b : ℕ → ℝ) : inner' n a b ^ 2 ≤ inner' n a a * inner' n b b := by
  have := sum_mul_sq_le_sq_mul_sq (range n) a b
  simpa [inner', pow_two] using this

theorem inner_mom (dim : ℕ) (U b : ℕ → ℝ) (h : U 0 ≠ 0) :
    inner' dim (fun i => U (1 + i)) b = U 0 * inner' dim (vel U) b := by
  simp only [inner', mul_sum, vel]
  exact sum_congr rfl fun i _ => by rw [add_comm 1 i]; field_simp

theorem inner_mom_mom (dim : ℕ) (U : ℕ → ℝ) (h : U 0 ≠ 0) :
    inner' dim (fun i => U (1 + i)) (fun i => U (1 + i)) = U 0 ^ 2 * inner' dim (vel U) (vel U) := by
  rw [inner_mom _ _ _ h, inner_comm, inner_mom _ _ _ h]; ring

theorem getPressure_eq (dim : ℕ) (γ : ℝ) (U : ℕ → ℝ) (h : U 0 ≠ 0) :
    getPressure dim γ U = some (pressure dim γ U) := by
  simp only [getPressure, mathDot_eq, cdiv_ne h, Option.bind_eq_bind, Option.bind_some, pure,
    inner_mom_mom dim U h, pressure, internalEnergy]
  congr 2; field_simp

theorem getPressure_some {dim : ℕ} {γ p : ℝ} {U : ℕ → ℝ} (h : getPressure dim γ U = some p) :
    U 0 ≠ 0 ∧ p = pressure dim γ U := by
  have h0 : U 0 ≠ 0 := by
    intro h0; simp [getPressure, cdiv, h0] at h
  exact ⟨h0, by rw [getPressure_eq _ _ _ h0] at h; simpa using h.symm⟩

theorem eulerMaxWaveSpeed_eq (dim : ℕ) (γ : ℝ) (U : ℕ → ℝ) (h : 0 < U 0)
    (hp : 0 ≤ γ * pressure dim γ U) : eulerMaxWaveSpeed dim γ U
      = some (Real.sqrt (inner' dim (vel U) (vel U)) + soundSpeed dim γ U) := by
  have h1 : 0 ≤ γ * pressure dim γ U * (1 / U 0) := by positivity
  simp only [eulerMaxWaveSpeed, mathDot_eq, cdiv_ne h.ne', Option.bind_eq_bind, Option.bind_some,
    pure, inner_mom_mom dim U h.ne', getPressure_eq dim γ U h.ne', csqrt_nn h1]
  rw [csqrt_nn (mul_nonneg (sq_nonneg _) (inner_nonneg _ _))]
  simp only [Option.bind_some, soundSpeed]
  rw [Real.sqrt_mul (sq_nonneg _), Real.sqrt_sq h.le]
  congr 2
  · field_simp
  · congr 1; ring

theorem eulerMaxWaveSpeed_some {dim : ℕ} {γ a : ℝ} {U : ℕ → ℝ}
    (h : eulerMaxWaveSpeed dim γ U = some a) : U 0 ≠ 0 ∧ 0 ≤ γ * pressure dim γ U / U 0 := by
  unfold eulerMaxWaveSpeed at h
  simp only [Option.bind_eq_bind, Option.bind_eq_some_iff, pure] at h
  obtain ⟨r, hr, m, hm, p, hp, c, hc, -⟩ := h
  obtain ⟨h0, rfl⟩ := cdiv_some hr
  obtain ⟨-, rfl⟩ := getPressure_some hp
  have := (csqrt_some hc).1
  exact ⟨h0, by rwa [mul_one_div] at this⟩

/-- The directional fluxes, dotted with any vector, are the flux through a surface with that normal. -/
theorem convFlux_dot (dim : ℕ) (hd : dim = 2 ∨ dim = 3) (γ : ℝ) (U F0 : ℕ → ℝ) (h : U 0 ≠ 0) :
    ∃ Fq, convFlux dim γ U F0 = some Fq ∧ ∀ N s, s < dim + 2 →
      ∑ d ∈ range dim, Fq (s + d * (dim + 2)) * N d = eulerFlux dim γ U N s := by
  rcases hd with rfl | rfl
  · simp only [convFlux, convFlux2, getPressure_eq _ _ _ h, cdiv_ne h, Option.bind_eq_bind,
      Option.bind_some, pure]
    refine ⟨_, rfl, fun N s hs => ?_⟩
    interval_cases s <;> simp [sum_range_succ, eulerFlux, inner', vel] <;> field_simp
    all_goals ring
  · simp only [convFlux, convFlux3, getPressure_eq _ _ _ h, cdiv_ne h, Option.bind_eq_bind,
      Option.bind_some, pure]
    refine ⟨_, rfl, fun N s hs => ?_⟩
    interval_cases s <;> simp [sum_range_succ, eulerFlux, inner', vel] <;> field_simp
    all_goals ring

theorem convFlux_some {dim : ℕ} {γ : ℝ} {U F0 Fq : ℕ → ℝ} (h : convFlux dim γ U F0 = some Fq) :
    (dim = 2 ∨ dim = 3) ∧ U 0 ≠ 0 := by
  unfold convFlux at h
  split at h
  · refine ⟨.inl rfl, fun h0 => ?_⟩; simp [convFlux2, cdiv, h0] at h
  · refine ⟨.inr rfl, fun h0 => ?_⟩; simp [convFlux3, cdiv, h0] at h
  · simp at h

theorem eulerFlux_smul (dim : ℕ) (γ c : ℝ) (U N : ℕ → ℝ) (s : ℕ) :
    eulerFlux dim γ U (fun i => c * N i) s = c * eulerFlux dim γ U N s := by
  unfold eulerFlux; simp only [inner_smul_right]; split_ifs <;> ring

theorem eulerFlux_neg (dim : ℕ) (γ : ℝ) (U N : ℕ → ℝ) (s : ℕ) :
    eulerFlux dim γ U (fun i => - N i) s = - eulerFlux dim γ U N s := by
  unfold eulerFlux; simp only [inner_neg_right]; split_ifs <;> ring

/-- What the Lax–Friedrichs routine computes. -/
theorem laxFriedrichs_spec {dim : ℕ} {γ : ℝ} {UL UR N Fq0 F0 F : ℕ → ℝ}
    (h : laxFriedrichs dim γ UL UR N Fq0 F0 = some F) :
    (dim = 2 ∨ dim = 3) ∧ UL 0 ≠ 0 ∧ UR 0 ≠ 0 ∧ inner' dim N N ≠ 0 ∧ ∃ aL aR,
      eulerMaxWaveSpeed dim γ UL = some aL ∧ eulerMaxWaveSpeed dim γ UR = some aR ∧
      ∀ s < dim + 2, F s = 1 / 2 * (eulerFlux dim γ UL N s + eulerFlux dim γ UR N s)
        - 1 / 2 * Real.sqrt (inner' dim N N) * max aL aR * (UR s - UL s) := by
  unfold laxFriedrichs laxFriedrichsWith at h
  simp only [Option.bind_eq_bind, Option.bind_eq_some_iff, pure] at h
  obtain ⟨m, hm, i, hi, FL, hFL, FR, hFR, aL, haL, aR, haR, h⟩ := h
  obtain ⟨hm0, rfl⟩ := csqrt_some hm
  rw [loopSum_eq] at hi h
  obtain ⟨hd, hL⟩ := convFlux_some hFL
  obtain ⟨-, hR⟩ := convFlux_some hFR
  have hne := (cdiv_some hi).1
  refine ⟨hd, hL, hR, fun h0 => hne ?_, aL, aR, haL, haR, fun s hs => ?_⟩
  · change Real.sqrt (inner' dim N N) = 0; rw [h0, Real.sqrt_zero]
  change Real.sqrt (inner' dim N N) ≠ 0 at hne
  obtain ⟨FL', e, hL'⟩ := convFlux_dot dim hd γ UL Fq0 hL
  obtain rfl : FL' = FL := by simpa [hFL] using e.symm
  obtain ⟨FR', e, hR'⟩ := convFlux_dot dim hd γ UR FL' hR
  obtain rfl : FR' = FR := by simpa [hFR] using e.symm
  rw [Option.some_inj] at h
  subst h
  simp only [hs, if_true, loopSum_eq, hL' _ s hs, hR' _ s hs]
  change Real.sqrt (inner' dim N N) * _ = _
  have e : (fun i => N i / Real.sqrt (∑ i ∈ range dim, N i * N i))
      = fun i => (1 / Real.sqrt (inner' dim N N)) * N i := by
    funext i; change N i / Real.sqrt (inner' dim N N) = _; ring
  rw [e, eulerFlux_smul, eulerFlux_smul]
  have e2 : (if aR > aL then aR else aL) = max aL aR := by
    split_ifs with h
    · exact (max_eq_right h.le).symm
    · exact (max_eq_left (not_lt.mp h)).symm
  rw [e2]
  field_simp

/-- The Lax–Friedrichs routine is defined exactly when the densities are nonzero, the normal is
nonzero and both wave speeds are real. -/
theorem laxFriedrichs_defined (dim : ℕ) (hd : dim = 2 ∨ dim = 3) (γ aL aR : ℝ)
    (UL UR N Fq0 F0 : ℕ → ℝ) (hN : inner' dim N N ≠ 0)
    (hL : eulerMaxWaveSpeed dim γ UL = some aL) (hR : eulerMaxWaveSpeed dim γ UR = some aR) :
    ∃ F, laxFriedrichs dim γ UL UR N Fq0 F0 = some F := by
  unfold laxFriedrichs laxFriedrichsWith
  rw [loopSum_eq]
  change ∃ F, (csqrt (inner' dim N N) >>= _) = some F
  have hpos : 0 < inner' dim N N := lt_of_le_of_ne (inner_nonneg _ _) hN.symm
  obtain ⟨FL, e1, -⟩ := convFlux_dot dim hd γ UL Fq0 (eulerMaxWaveSpeed_some hL).1
  obtain ⟨FR, e2, -⟩ := convFlux_dot dim hd γ UR FL (eulerMaxWaveSpeed_some hR).1
  rw [csqrt_nn hpos.le]
  simp only [Option.bind_eq_bind, Option.bind_some, cdiv_ne (Real.sqrt_pos.mpr hpos).ne', e1, e2,
    hL, hR, pure]
  exact ⟨_, rfl⟩

theorem sqrt_inner_pos {dim : ℕ} {N : ℕ → ℝ} (hN : inner' dim N N ≠ 0) :
    0 < Real.sqrt (inner' dim N N) :=
  Real.sqrt_pos.mpr (lt_of_le_of_ne (inner_nonneg _ _) hN.symm)

theorem hllcQ_eq (γ pStar P : ℝ) (hγ : 1 < γ) (hP : 0 < P) :
    hllcQ γ pStar P = some (shockFactor γ pStar P) := by
  unfold hllcQ shockFactor
  rw [cdiv_ne hP.ne']
  simp only [Option.bind_eq_bind, Option.bind_some, gt_iff_lt, one_lt_div hP]
  by_cases h : P < pStar
  · rw [if_pos h, if_neg (not_le.mpr h), cdiv_ne (by positivity), Option.bind_some, csqrt_nn]
    have : 1 ≤ pStar / P := by rw [le_div_iff₀ hP]; linarith
    have : 0 ≤ (γ + 1) / (2 * γ) * (pStar / P - 1) :=
      mul_nonneg (by positivity) (by linarith)
    linarith
  · rw [if_neg h, if_pos (not_lt.mp h)]; rfl

theorem shockFactor_ge (γ pStar P : ℝ) (hγ : 1 < γ) (hP : 0 < P) : 1 ≤ shockFactor γ pStar P := by
  unfold shockFactor
  split_ifs with h
  · exact le_rfl
  · have : 1 ≤ pStar / P := by rw [le_div_iff₀ hP]; linarith
    have : 0 ≤ (γ + 1) / (2 * γ) * (pStar / P - 1) :=
      mul_nonneg (by positivity) (by linarith)
    rw [Real.one_le_sqrt]; linarith

theorem soundSpeed_pos {dim : ℕ} {γ : ℝ} {U : ℕ → ℝ} (hγ : 1 < γ) (h : Admissible dim γ U) :
    0 < soundSpeed dim γ U := by
  have := h.ρ_pos; have := h.p_pos
  exact Real.sqrt_pos.mpr (by positivity)

/-- the left wave runs to the left of the left state -/
theorem waveSpeedL_lt {dim : ℕ} {γ : ℝ} {UL UR n : ℕ → ℝ} (hγ : 1 < γ) (hL : Admissible dim γ UL) :
    waveSpeedL dim γ UL UR n < inner' dim (vel UL) n := by
  unfold waveSpeedL
  have := soundSpeed_pos hγ hL
  have h2 := shockFactor_ge γ (pvrsPressure (UL 0) (inner' dim (vel UL) n) (pressure dim γ UL)
    (soundSpeed dim γ UL) (UR 0) (inner' dim (vel UR) n) (pressure dim γ UR) (soundSpeed dim γ UR))
    (pressure dim γ UL) hγ hL.p_pos
  have : 0 < soundSpeed dim γ UL * shockFactor γ (pvrsPressure (UL 0) (inner' dim (vel UL) n)
    (pressure dim γ UL) (soundSpeed dim γ UL) (UR 0) (inner' dim (vel UR) n) (pressure dim γ UR)
    (soundSpeed dim γ UR)) (pressure dim γ UL) := by positivity
  linarith

/-- the right wave runs to the right of the right state -/
theorem waveSpeedR_gt {dim : ℕ} {γ : ℝ} {UL UR n : ℕ → ℝ} (hγ : 1 < γ) (hR : Admissible dim γ UR) :
    inner' dim (vel UR) n < waveSpeedR dim γ UL UR n := by
  unfold waveSpeedR
  have := soundSpeed_pos hγ hR
  have h2 := shockFactor_ge γ (pvrsPressure (UL 0) (inner' dim (vel UL) n) (pressure dim γ UL)
    (soundSpeed dim γ UL) (UR 0) (inner' dim (vel UR) n) (pressure dim γ UR) (soundSpeed dim γ UR))
    (pressure dim γ UR) hγ hR.p_pos
  have : 0 < soundSpeed dim γ UR * shockFactor γ (pvrsPressure (UL 0) (inner' dim (vel UL) n)
    (pressure dim γ UL) (soundSpeed dim γ UL) (UR 0) (inner' dim (vel UR) n) (pressure dim γ UR)
    (soundSpeed dim γ UR)) (pressure dim γ UR) := by positivity
  linarith

theorem contact_denom_neg {dim : ℕ} {γ : ℝ} {UL UR n : ℕ → ℝ} (hγ : 1 < γ)
    (hL : Admissible dim γ UL) (hR : Admissible dim γ UR) :
    UL 0 * (waveSpeedL dim γ UL UR n - inner' dim (vel UL) n)
      - UR 0 * (waveSpeedR dim γ UL UR n - inner' dim (vel UR) n) < 0 := by
  have h1 := waveSpeedL_lt (UR := UR) (n := n) hγ hL
  have h2 := waveSpeedR_gt (UL := UL) (n := n) hγ hR
  nlinarith [hL.ρ_pos, hR.ρ_pos]

theorem writeFlux_euler (dim : ℕ) (γ d : ℝ) (U n F0 : ℕ → ℝ) (s : ℕ) (hs : s < dim + 2) :
    writeFlux dim (d * (U 0 * inner' dim (vel U) n))
      (fun i => d * (U (1 + i) * inner' dim (vel U) n + pressure dim γ U * n i))
      (d * ((U (dim + 1) + pressure dim γ U) * inner' dim (vel U) n)) F0 s
      = d * eulerFlux dim γ U n s := by
  unfold writeFlux eulerFlux
  by_cases h0 : s = 0
  · simp [h0]
  · by_cases h1 : s < dim + 1
    · simp only [h0, h1, if_true, if_false]
      obtain ⟨k, rfl⟩ : ∃ k, s = 1 + k := ⟨s - 1, by omega⟩
      simp
    · have : s = dim + 1 := by omega
      simp [this]

theorem writeFlux_star (dim : ℕ) (γ d S Ss : ℝ) (U n F0 : ℕ → ℝ) (s : ℕ) (hs : s < dim + 2)
    (h0 : U 0 ≠ 0) (hS : S - Ss ≠ 0) :
    writeFlux dim
      (d * (U 0 * inner' dim (vel U) n + U 0 * S * ((S - inner' dim (vel U) n) / (S - Ss) - 1)))
      (fun i => d * (U (1 + i) * inner' dim (vel U) n + pressure dim γ U * n i
        + S * (U (1 + i) * ((S - inner' dim (vel U) n) / (S - Ss) - 1)
          + U 0 * ((S - inner' dim (vel U) n) / (S - Ss)) * (Ss - inner' dim (vel U) n) * n i)))
      (d * ((U (dim + 1) + pressure dim γ U) * inner' dim (vel U) n
        + S * (U (dim + 1) * ((S - inner' dim (vel U) n) / (S - Ss) - 1)
          + U 0 * ((S - inner' dim (vel U) n) / (S - Ss)) * (Ss - inner' dim (vel U) n)
            * (Ss + pressure dim γ U / (U 0 * (S - inner' dim (vel U) n)))))) F0 s
      = d * (eulerFlux dim γ U n s + S * (starState dim γ U n S Ss s - U s)) := by
  unfold writeFlux eulerFlux starState
  by_cases h0 : s = 0
  · subst h0; simp only [if_true]; ring
  · by_cases h1 : s < dim + 1
    · simp only [h0, h1, if_true, if_false]
      obtain ⟨k, rfl⟩ : ∃ k, s = 1 + k := ⟨s - 1, by omega⟩
      have e : vel U k = U (1 + k) / U 0 := by rw [vel, add_comm]
      simp only [show 1 + k - 1 = k by omega, e]
      field_simp
      ring
    · have : s = dim + 1 := by omega
      subst this
      simp only [Nat.lt_irrefl, if_false, h0, if_true]; ring

/-- What the HLLC routine computes on admissible states, in terms of the wave speeds and star
states of `Spec/Euler.lean`. -/
theorem hllc_spec (dim : ℕ) (γ : ℝ) (hγ : 1 < γ) (UL UR N F0 : ℕ → ℝ) (hL : Admissible dim γ UL)
    (hR : Admissible dim γ UR) (hN : inner' dim N N ≠ 0) :
    ∃ F, hllc dim γ UL UR N F0 = some F ∧ ∀ s < dim + 2, F s = Real.sqrt (inner' dim N N) *
      hllcFlux dim γ UL UR (unit dim N) s := by
  have hd := sqrt_inner_pos hN
  have h0L := hL.ρ_pos.ne'
  have h0R := hR.ρ_pos.ne'
  have aLn : 0 ≤ γ * pressure dim γ UL * (1 / UL 0) := by have := hL.ρ_pos; have := hL.p_pos; positivity
  have aRn : 0 ≤ γ * pressure dim γ UR * (1 / UR 0) := by have := hR.ρ_pos; have := hR.p_pos; positivity
  have eu : ∀ i, N i * (1 / Real.sqrt (inner' dim N N)) = unit dim N i := fun i => by
    unfold unit; ring
  have sL' := waveSpeedL_lt (UR := UR) (n := unit dim N) hγ hL
  have sR' := waveSpeedR_gt (UL := UL) (n := unit dim N) hγ hR
  have hden := contact_denom_neg (n := unit dim N) hγ hL hR
  have vL : UL 0 * inner' dim (vel UL) (unit dim N) * (1 / UL 0) = inner' dim (vel UL) (unit dim N) := by
    field_simp
  have vR : UR 0 * inner' dim (vel UR) (unit dim N) * (1 / UR 0) = inner' dim (vel UR) (unit dim N) := by
    field_simp
  have cL : Real.sqrt (γ * pressure dim γ UL * (1 / UL 0)) = soundSpeed dim γ UL := by
    unfold soundSpeed; congr 1; ring
  have cR : Real.sqrt (γ * pressure dim γ UR * (1 / UR 0)) = soundSpeed dim γ UR := by
    unfold soundSpeed; congr 1; ring
  unfold hllc
  simp only [mathDot_eq, csqrt_nn (inner_nonneg dim N), cdiv_ne hd.ne', cdiv_ne h0L, cdiv_ne h0R,
    eu, getPressure_eq _ _ _ h0L, getPressure_eq _ _ _ h0R, csqrt_nn aLn, csqrt_nn aRn,
    Option.bind_eq_bind, Option.bind_some, hllcQ_eq γ _ _ hγ hL.p_pos, hllcQ_eq γ _ _ hγ hR.p_pos,
    inner_mom _ _ _ h0L, inner_mom _ _ _ h0R, vL, vR, cL, cR]
  have hp : max 0 (1 / 2 * (pressure dim γ UL + pressure dim γ UR
      - (inner' dim (vel UR) (unit dim N) - inner' dim (vel UL) (unit dim N))
        * (1 / 2 * (UL 0 + UR 0)) * (1 / 2 * (soundSpeed dim γ UL + soundSpeed dim γ UR))))
      = pvrsPressure (UL 0) (inner' dim (vel UL) (unit dim N)) (pressure dim γ UL)
        (soundSpeed dim γ UL) (UR 0) (inner' dim (vel UR) (unit dim N)) (pressure dim γ UR)
        (soundSpeed dim γ UR) := by
    unfold pvrsPressure; congr 1; ring
  rw [hp]
  have eL : inner' dim (vel UL) (unit dim N) - soundSpeed dim γ UL * shockFactor γ
    (pvrsPressure (UL 0) (inner' dim (vel UL) (unit dim N)) (pressure dim γ UL) (soundSpeed dim γ UL)
      (UR 0) (inner' dim (vel UR) (unit dim N)) (pressure dim γ UR) (soundSpeed dim γ UR))
      (pressure dim γ UL) = waveSpeedL dim γ UL UR (unit dim N) := rfl
  have eR : inner' dim (vel UR) (unit dim N) + soundSpeed dim γ UR * shockFactor γ
    (pvrsPressure (UL 0) (inner' dim (vel UL) (unit dim N)) (pressure dim γ UL) (soundSpeed dim γ UL)
      (UR 0) (inner' dim (vel UR) (unit dim N)) (pressure dim γ UR) (soundSpeed dim γ UR))
      (pressure dim γ UR) = waveSpeedR dim γ UL UR (unit dim N) := rfl
  rw [eL, eR, cdiv_ne hden.ne]
  simp only [Option.bind_some]
  rw [show (pressure dim γ UR - pressure dim γ UL + UL 0 * inner' dim (vel UL) (unit dim N) *
        (waveSpeedL dim γ UL UR (unit dim N) - inner' dim (vel UL) (unit dim N)) -
      UR 0 * inner' dim (vel UR) (unit dim N) *
        (waveSpeedR dim γ UL UR (unit dim N) - inner' dim (vel UR) (unit dim N))) /
    (UL 0 * (waveSpeedL dim γ UL UR (unit dim N) - inner' dim (vel UL) (unit dim N)) -
      UR 0 * (waveSpeedR dim γ UL UR (unit dim N) - inner' dim (vel UR) (unit dim N)))
      = contactSpeed dim γ UL UR (unit dim N) from rfl]
  unfold hllcFlux
  by_cases h1 : 0 ≤ waveSpeedL dim γ UL UR (unit dim N)
  · simp only [ge_iff_le, h1, if_true, pure]
    refine ⟨_, rfl, fun s hs => ?_⟩
    rw [← writeFlux_euler dim γ _ UL (unit dim N) F0 s hs, mul_assoc]
  simp only [ge_iff_le, h1, if_false]
  by_cases h2 : waveSpeedR dim γ UL UR (unit dim N) ≤ 0
  · simp only [h2, if_true, pure]
    refine ⟨_, rfl, fun s hs => ?_⟩
    rw [← writeFlux_euler dim γ _ UR (unit dim N) F0 s hs, mul_assoc, mul_assoc]
  simp only [h2, if_false]
  by_cases h3 : 0 ≤ contactSpeed dim γ UL UR (unit dim N)
  · have hne : waveSpeedL dim γ UL UR (unit dim N) - contactSpeed dim γ UL UR (unit dim N) ≠ 0 := by
      apply ne_of_lt; push Not at h1; linarith
    rw [if_pos ⟨not_le.mp h1, h3⟩, cdiv_ne hne,
      cdiv_ne (mul_ne_zero h0L (by linarith : _ < _).ne)]
    simp only [Option.bind_some, pure, h3, if_true]
    exact ⟨_, rfl, fun s hs => writeFlux_star dim γ _ _ _ UL _ F0 s hs h0L hne⟩
  · have hne : waveSpeedR dim γ UL UR (unit dim N) - contactSpeed dim γ UL UR (unit dim N) ≠ 0 := by
      apply ne_of_gt; push Not at h2 h3; linarith
    rw [if_neg (fun h => h3 h.2), if_pos ⟨not_le.mp h3, not_le.mp h2⟩, cdiv_ne hne,
      cdiv_ne (mul_ne_zero h0R (by linarith : 0 < waveSpeedR dim γ UL UR (unit dim N)
        - inner' dim (vel UR) (unit dim N)).ne')]
    simp only [Option.bind_some, pure, h3, if_false]
    exact ⟨_, rfl, fun s hs => writeFlux_star dim γ _ _ _ UR _ F0 s hs h0R hne⟩

end DG
