import Verif.Props.Physics

/-! C32: the HLLC flux. -/
namespace DG
open Finset

theorem pvrs_comm (ρL uL pL aL ρR uR pR aR : ℝ) :
    pvrsPressure ρR (-uR) pR aR ρL (-uL) pL aL = pvrsPressure ρL uL pL aL ρR uR pR aR := by
  unfold pvrsPressure; congr 1; ring

theorem waveSpeedL_swap (dim : ℕ) (γ : ℝ) (UL UR n : ℕ → ℝ) :
    waveSpeedL dim γ UR UL (fun i => - n i) = - waveSpeedR dim γ UL UR n := by
  unfold waveSpeedL waveSpeedR
  simp only [inner_neg_right, pvrs_comm]; ring

theorem waveSpeedR_swap (dim : ℕ) (γ : ℝ) (UL UR n : ℕ → ℝ) :
    waveSpeedR dim γ UR UL (fun i => - n i) = - waveSpeedL dim γ UL UR n := by
  unfold waveSpeedL waveSpeedR
  simp only [inner_neg_right, pvrs_comm]; ring

theorem contactSpeed_swap (dim : ℕ) (γ : ℝ) (UL UR n : ℕ → ℝ) :
    contactSpeed dim γ UR UL (fun i => - n i) = - contactSpeed dim γ UL UR n := by
  unfold contactSpeed
  simp only [waveSpeedL_swap, waveSpeedR_swap, inner_neg_right]
  rw [← neg_div]
  congr 1 <;> ring

theorem starState_neg (dim : ℕ) (γ S Ss : ℝ) (U n : ℕ → ℝ) (s : ℕ) :
    starState dim γ U (fun i => - n i) (-S) (-Ss) s = starState dim γ U n S Ss s := by
  unfold starState
  simp only [inner_neg_right]
  have e : (-S - -inner' dim (vel U) n) / (-S - -Ss) = (S - inner' dim (vel U) n) / (S - Ss) := by
    rw [← neg_div_neg_eq]; congr 1 <;> ring
  rw [e]
  split_ifs
  · ring
  · ring
  · have : pressure dim γ U / (U 0 * (-S - -inner' dim (vel U) n))
        = - (pressure dim γ U / (U 0 * (S - inner' dim (vel U) n))) := by
      rw [← div_neg]; congr 1; ring
    rw [this]; ring

/-- the pressure behind the wave of speed `S` when the normal velocity becomes `Ss` -/
noncomputable def starPressure (dim : ℕ) (γ : ℝ) (U n : ℕ → ℝ) (S Ss : ℝ) : ℝ :=
  pressure dim γ U + U 0 * (S - inner' dim (vel U) n) * (Ss - inner' dim (vel U) n)

/-- The flux behind a wave transports the star state with the contact speed and has one pressure. -/
theorem star_flux (dim : ℕ) (γ S Ss : ℝ) (U n : ℕ → ℝ) (s : ℕ) (hU : U 0 ≠ 0)
    (h1 : S - Ss ≠ 0) (h2 : S - inner' dim (vel U) n ≠ 0) :
    eulerFlux dim γ U n s + S * (starState dim γ U n S Ss s
        - (if s < dim + 1 then U s else U (dim + 1))) =
      if s = 0 then starState dim γ U n S Ss s * Ss
      else if s < dim + 1 then starState dim γ U n S Ss s * Ss + starPressure dim γ U n S Ss * n (s - 1)
      else (starState dim γ U n S Ss s + starPressure dim γ U n S Ss) * Ss := by
  unfold eulerFlux starState starPressure
  by_cases h0 : s = 0
  · subst h0; simp; field_simp; ring
  · by_cases h3 : s < dim + 1
    · simp only [h0, h3, if_true, if_false]
      have e : U s = U 0 * vel U (s - 1) := by
        rw [vel, Nat.sub_add_cancel (by omega)]; field_simp
      rw [e]; field_simp; ring
    · simp only [h0, h3, if_false]
      field_simp; ring

theorem contact_pressure {dim : ℕ} {γ : ℝ} {UL UR n : ℕ → ℝ} (hγ : 1 < γ)
    (hL : Admissible dim γ UL) (hR : Admissible dim γ UR) :
    starPressure dim γ UL n (waveSpeedL dim γ UL UR n) (contactSpeed dim γ UL UR n)
      = starPressure dim γ UR n (waveSpeedR dim γ UL UR n) (contactSpeed dim γ UL UR n) := by
  have h := (contact_denom_neg (n := n) hγ hL hR).ne
  have hc : contactSpeed dim γ UL UR n * (UL 0 * (waveSpeedL dim γ UL UR n - inner' dim (vel UL) n)
      - UR 0 * (waveSpeedR dim γ UL UR n - inner' dim (vel UR) n))
      = pressure dim γ UR - pressure dim γ UL
        + UL 0 * inner' dim (vel UL) n * (waveSpeedL dim γ UL UR n - inner' dim (vel UL) n)
        - UR 0 * inner' dim (vel UR) n * (waveSpeedR dim γ UL UR n - inner' dim (vel UR) n) :=
    div_mul_cancel₀ _ h
  unfold starPressure
  linear_combination hc

theorem hllcFlux_swap {dim : ℕ} {γ : ℝ} {UL UR n : ℕ → ℝ} (hγ : 1 < γ)
    (hL : Admissible dim γ UL) (hR : Admissible dim γ UR)
    (hw : waveSpeedL dim γ UL UR n < 0 ∨ 0 < waveSpeedR dim γ UL UR n) (s : ℕ) (hs : s < dim + 2) :
    hllcFlux dim γ UR UL (fun i => - n i) s = - hllcFlux dim γ UL UR n s := by
  have h1 := waveSpeedL_lt (UR := UR) (n := n) hγ hL
  have h2 := waveSpeedR_gt (UL := UL) (n := n) hγ hR
  have hcp := contact_pressure (n := n) hγ hL hR
  unfold hllcFlux
  simp only [waveSpeedL_swap, waveSpeedR_swap, contactSpeed_swap, eulerFlux_neg, starState_neg]
  set sL := waveSpeedL dim γ UL UR n with hsL
  set sR := waveSpeedR dim γ UL UR n with hsR
  set sS := contactSpeed dim γ UL UR n with hsS
  by_cases c1 : 0 ≤ sL
  · have c2 : ¬ (0 ≤ -sR) := by rcases hw with h | h <;> linarith
    have c3 : -sL ≤ 0 := by linarith
    simp [c1, c2, c3]
  by_cases c2 : sR ≤ 0
  · have : 0 ≤ -sR := by linarith
    simp [c1, c2, this]
  have c1' : ¬ (-sL ≤ 0) := by linarith
  have c2' : ¬ (0 ≤ -sR) := by linarith
  simp only [c1, c2, c1', c2', if_false]
  push Not at c1 c2
  rcases lt_trichotomy sS 0 with h | h | h
  · rw [if_pos (by linarith : 0 ≤ -sS), if_neg (by linarith)]; ring
  · have fL := star_flux dim γ sL sS UL n s hL.ρ_pos.ne' (by rw [h]; linarith : _ < _).ne
      (by linarith : _ < _).ne
    have fR := star_flux dim γ sR sS UR n s hR.ρ_pos.ne' (by rw [h]; linarith : 0 < sR - sS).ne'
      (by linarith : 0 < sR - inner' dim (vel UR) n).ne'
    have eL : (if s < dim + 1 then UL s else UL (dim + 1)) = UL s := by
      split_ifs with h'
      · rfl
      · rw [show s = dim + 1 by omega]
    have eR : (if s < dim + 1 then UR s else UR (dim + 1)) = UR s := by
      split_ifs with h'
      · rfl
      · rw [show s = dim + 1 by omega]
    rw [eL] at fL
    rw [eR] at fR
    rw [if_pos (by rw [h, neg_zero]), if_pos h.ge, fL]
    have : - eulerFlux dim γ UR n s + -sR * (starState dim γ UR n sR sS s - UR s)
        = - (eulerFlux dim γ UR n s + sR * (starState dim γ UR n sR sS s - UR s)) := by ring
    rw [this, fR, hcp, h]
    split_ifs <;> ring
  · rw [if_neg (by linarith), if_pos h.le]; ring

theorem unit_smul (dim : ℕ) (c : ℝ) (hc : 0 < c) (N : ℕ → ℝ) :
    unit dim (fun i => c * N i) = unit dim N := by
  funext i
  unfold unit
  rw [inner_smul_left, inner_smul_right, ← mul_assoc, ← pow_two, Real.sqrt_mul (sq_nonneg c),
    Real.sqrt_sq hc.le, mul_div_mul_left _ _ hc.ne']

theorem unit_neg (dim : ℕ) (N : ℕ → ℝ) : unit dim (fun i => - N i) = fun i => - unit dim N i := by
  funext i
  have : inner' dim (fun i => - N i) (fun i => - N i) = inner' dim N N := by simp [inner']
  simp [unit, this, neg_div]

theorem inner_neg_neg (dim : ℕ) (N : ℕ → ℝ) :
    inner' dim (fun i => - N i) (fun i => - N i) = inner' dim N N := by simp [inner']

theorem eulerFlux_unit (dim : ℕ) (γ : ℝ) (U N : ℕ → ℝ) (hN : inner' dim N N ≠ 0) (s : ℕ) :
    Real.sqrt (inner' dim N N) * eulerFlux dim γ U (unit dim N) s = eulerFlux dim γ U N s := by
  have h := (sqrt_inner_pos hN).ne'
  rw [← eulerFlux_smul]
  congr 1; funext i; unfold unit; field_simp

/-- C32: on admissible states and for every nonzero normal the routine divides by nothing zero,
takes no root of a negative number and never reaches its assertion. -/
theorem C32_no_failure (dim : ℕ) (γ : ℝ) (hγ : 1 < γ) (UL UR N F0 : ℕ → ℝ)
    (hL : Admissible dim γ UL) (hR : Admissible dim γ UR) (hN : inner' dim N N ≠ 0) :
    ∃ F, hllc dim γ UL UR N F0 = some F :=
  (hllc_spec dim γ hγ UL UR N F0 hL hR hN).imp fun _ h => h.1

/-- C32: when the estimated left wave does not move left, the flux is the left physical flux. -/
theorem C32_upwind_left (dim : ℕ) (γ : ℝ) (hγ : 1 < γ) (UL UR N F0 F : ℕ → ℝ)
    (hL : Admissible dim γ UL) (hR : Admissible dim γ UR) (hN : inner' dim N N ≠ 0)
    (hF : hllc dim γ UL UR N F0 = some F) (hs : 0 ≤ waveSpeedL dim γ UL UR (unit dim N)) :
    ∀ s < dim + 2, F s = eulerFlux dim γ UL N s := by
  obtain ⟨_, e, h⟩ := hllc_spec dim γ hγ UL UR N F0 hL hR hN
  obtain rfl := Option.some_inj.mp (hF.symm.trans e)
  intro s h'
  rw [h s h', hllcFlux]
  simp only [hs, if_true]
  exact eulerFlux_unit dim γ UL N hN s

/-- C32: when the estimated right wave does not move right (and the left one moves left), the flux
is the right physical flux. -/
theorem C32_upwind_right (dim : ℕ) (γ : ℝ) (hγ : 1 < γ) (UL UR N F0 F : ℕ → ℝ)
    (hL : Admissible dim γ UL) (hR : Admissible dim γ UR) (hN : inner' dim N N ≠ 0)
    (hF : hllc dim γ UL UR N F0 = some F) (hs : waveSpeedR dim γ UL UR (unit dim N) ≤ 0)
    (hs' : waveSpeedL dim γ UL UR (unit dim N) < 0) :
    ∀ s < dim + 2, F s = eulerFlux dim γ UR N s := by
  obtain ⟨_, e, h⟩ := hllc_spec dim γ hγ UL UR N F0 hL hR hN
  obtain rfl := Option.some_inj.mp (hF.symm.trans e)
  intro s h'
  rw [h s h', hllcFlux]
  simp only [hs, if_true, if_neg (not_le.mpr hs')]
  exact eulerFlux_unit dim γ UR N hN s

/-- C32: an isolated contact discontinuity (equal pressure and normal velocity, any densities and
tangential velocities) is resolved exactly: the flux is the physical flux of the upwind state. -/
theorem C32_contact (dim : ℕ) (γ : ℝ) (hγ : 1 < γ) (UL UR N F0 F : ℕ → ℝ)
    (hL : Admissible dim γ UL) (hR : Admissible dim γ UR) (hN : inner' dim N N ≠ 0)
    (hF : hllc dim γ UL UR N F0 = some F) (hp : pressure dim γ UL = pressure dim γ UR)
    (hu : inner' dim (vel UL) N = inner' dim (vel UR) N) :
    (0 ≤ inner' dim (vel UL) N → ∀ s < dim + 2, F s = eulerFlux dim γ UL N s) ∧
    (inner' dim (vel UL) N < 0 → ∀ s < dim + 2, F s = eulerFlux dim γ UR N s) := by
  obtain ⟨_, e, h⟩ := hllc_spec dim γ hγ UL UR N F0 hL hR hN
  obtain rfl := Option.some_inj.mp (hF.symm.trans e)
  have hd := sqrt_inner_pos hN
  have un : ∀ v : ℕ → ℝ, inner' dim v (unit dim N) = (1 / Real.sqrt (inner' dim N N)) * inner' dim v N := by
    intro v; rw [← inner_smul_right]; congr 1; funext i; unfold unit; ring
  set n := unit dim N with hn
  set u := inner' dim (vel UL) n with hu1
  have hu2 : inner' dim (vel UR) n = u := by rw [hu1, un, un, hu]
  have aL := soundSpeed_pos hγ hL
  have aR := soundSpeed_pos hγ hR
  have hpv : pvrsPressure (UL 0) u (pressure dim γ UL) (soundSpeed dim γ UL)
      (UR 0) u (pressure dim γ UR) (soundSpeed dim γ UR) = pressure dim γ UR := by
    unfold pvrsPressure
    rw [hp, sub_self, zero_div, zero_mul, zero_mul, sub_zero, add_self_div_two]
    exact max_eq_right hR.p_pos.le
  have esL : waveSpeedL dim γ UL UR n = u - soundSpeed dim γ UL := by
    unfold waveSpeedL
    rw [hu2, ← hu1, hpv, hp, shockFactor, if_pos le_rfl, mul_one]
  have esR : waveSpeedR dim γ UL UR n = u + soundSpeed dim γ UR := by
    unfold waveSpeedR
    rw [hu2, ← hu1, hpv, shockFactor, if_pos le_rfl, mul_one]
  have esS : contactSpeed dim γ UL UR n = u := by
    have hden := contact_denom_neg (n := n) hγ hL hR
    unfold contactSpeed
    simp only
    rw [div_eq_iff hden.ne]
    rw [hu2, ← hu1, hp]; ring
  have star : ∀ (U : ℕ → ℝ) (S : ℝ), U 0 ≠ 0 → inner' dim (vel U) n = u → S - u ≠ 0 →
      ∀ s < dim + 2, starState dim γ U n S u s = U s := by
    intro U S hU e hS s hs
    unfold starState
    rw [e]
    simp only [div_self hS, sub_self, mul_one, zero_mul, mul_zero, add_zero, one_mul]
    split_ifs with h0 h1
    · rw [h0]
    · rw [vel, Nat.sub_add_cancel (by omega)]; field_simp
    · rw [show s = dim + 1 by omega]
  have hsign : ∀ v, inner' dim v n = (1 / Real.sqrt (inner' dim N N)) * inner' dim v N := un
  constructor
  · intro h0 s hs
    have hu0 : 0 ≤ u := by rw [hu1, un]; positivity
    rw [h s hs, ← eulerFlux_unit dim γ UL N hN s, hllcFlux, esL, esR, esS]
    congr 1
    by_cases c : 0 ≤ u - soundSpeed dim γ UL
    · rw [if_pos c]
    · rw [if_neg c, if_neg (by linarith), if_pos hu0,
        star UL _ hL.ρ_pos.ne' hu1.symm (by linarith : _ < _).ne s hs]
      ring
  · intro h0 s hs
    have hu0 : u < 0 := by
      rw [hu1, un]; exact mul_neg_of_pos_of_neg (by positivity) h0
    rw [h s hs, ← eulerFlux_unit dim γ UR N hN s, hllcFlux, esL, esR, esS]
    congr 1
    rw [if_neg (by linarith)]
    by_cases c : u + soundSpeed dim γ UR ≤ 0
    · rw [if_pos c]
    · rw [if_neg c, if_neg (by linarith), star UR _ hR.ρ_pos.ne' hu2 (by
        have : 0 < u + soundSpeed dim γ UR - u := by linarith
        exact this.ne') s hs]
      ring

/-- C32: with equal states the flux is the physical flux dotted with the normal. -/
theorem C32_consistent (dim : ℕ) (γ : ℝ) (hγ : 1 < γ) (U N F0 F : ℕ → ℝ)
    (hU : Admissible dim γ U) (hN : inner' dim N N ≠ 0) (hF : hllc dim γ U U N F0 = some F) :
    ∀ s < dim + 2, F s = eulerFlux dim γ U N s := by
  have h := C32_contact dim γ hγ U U N F0 F hU hU hN hF rfl rfl
  rcases le_or_gt 0 (inner' dim (vel U) N) with c | c
  · exact h.1 c
  · exact h.2 c

/-- C32: a stationary contact (no normal velocity) only transmits the pressure force. -/
theorem C32_stationary_contact (dim : ℕ) (γ : ℝ) (hγ : 1 < γ) (UL UR N F0 F : ℕ → ℝ)
    (hL : Admissible dim γ UL) (hR : Admissible dim γ UR) (hN : inner' dim N N ≠ 0)
    (hF : hllc dim γ UL UR N F0 = some F) (hp : pressure dim γ UL = pressure dim γ UR)
    (h0L : inner' dim (vel UL) N = 0) (h0R : inner' dim (vel UR) N = 0) :
    F 0 = 0 ∧ (∀ i < dim, F (1 + i) = pressure dim γ UL * N i) ∧ F (dim + 1) = 0 := by
  have h := (C32_contact dim γ hγ UL UR N F0 F hL hR hN hF hp (h0L.trans h0R.symm)).1 h0L.ge
  refine ⟨?_, fun i hi => ?_, ?_⟩
  · rw [h 0 (by omega)]; simp [eulerFlux, h0L]
  · rw [h (1 + i) (by omega)]
    simp [eulerFlux, h0L, show 1 + i < dim + 1 by omega]
  · rw [h (dim + 1) (by omega)]; simp [eulerFlux, h0L]

/-- C32: scaling the normal by `c > 0` scales the flux by `c`. -/
theorem C32_homogeneous (dim : ℕ) (γ : ℝ) (hγ : 1 < γ) (c : ℝ) (hc : 0 < c) (UL UR N F0 F1 F : ℕ → ℝ)
    (hL : Admissible dim γ UL) (hR : Admissible dim γ UR) (hN : inner' dim N N ≠ 0)
    (hF : hllc dim γ UL UR N F0 = some F) :
    ∃ G, hllc dim γ UL UR (fun i => c * N i) F1 = some G ∧ ∀ s < dim + 2, G s = c * F s := by
  obtain ⟨_, e, h⟩ := hllc_spec dim γ hγ UL UR N F0 hL hR hN
  obtain rfl := Option.some_inj.mp (hF.symm.trans e)
  have hNN : inner' dim (fun i => c * N i) (fun i => c * N i) = c ^ 2 * inner' dim N N := by
    rw [inner_smul_left, inner_smul_right]; ring
  obtain ⟨G, e', h'⟩ := hllc_spec dim γ hγ UL UR (fun i => c * N i) F1 hL hR
    (by rw [hNN]; positivity)
  refine ⟨G, e', fun s hs => ?_⟩
  rw [h' s hs, h s hs, hNN, unit_smul dim c hc, Real.sqrt_mul (sq_nonneg c), Real.sqrt_sq hc.le]
  ring

/-- C32: swapping the two states and negating the normal negates the flux, unless the two wave
speed estimates cross (left wave moving right *and* right wave moving left), where the property
fails (`C32_antisymmetric_iff`). -/
theorem C32_antisymmetric (dim : ℕ) (γ : ℝ) (hγ : 1 < γ) (UL UR N F0 F1 F : ℕ → ℝ)
    (hL : Admissible dim γ UL) (hR : Admissible dim γ UR) (hN : inner' dim N N ≠ 0)
    (hF : hllc dim γ UL UR N F0 = some F)
    (hw : waveSpeedL dim γ UL UR (unit dim N) < 0 ∨ 0 < waveSpeedR dim γ UL UR (unit dim N)) :
    ∃ G, hllc dim γ UR UL (fun i => - N i) F1 = some G ∧ ∀ s < dim + 2, G s = - F s := by
  obtain ⟨_, e, h⟩ := hllc_spec dim γ hγ UL UR N F0 hL hR hN
  obtain rfl := Option.some_inj.mp (hF.symm.trans e)
  obtain ⟨G, e', h'⟩ := hllc_spec dim γ hγ UR UL (fun i => - N i) F1 hR hL
    (by rwa [inner_neg_neg])
  refine ⟨G, e', fun s hs => ?_⟩
  rw [h' s hs, h s hs, inner_neg_neg, unit_neg, hllcFlux_swap hγ hL hR hw s hs]
  ring

/-- C32 (complete): swapping the two states and negating the normal negates the flux *exactly* when the
wave speed estimates do not cross.  Where they cross, both orderings report a mass flux out of their
own left state. -/
theorem C32_antisymmetric_iff (dim : ℕ) (γ : ℝ) (hγ : 1 < γ) (UL UR N F0 F1 F G : ℕ → ℝ)
    (hL : Admissible dim γ UL) (hR : Admissible dim γ UR) (hN : inner' dim N N ≠ 0)
    (hF : hllc dim γ UL UR N F0 = some F) (hG : hllc dim γ UR UL (fun i => - N i) F1 = some G) :
    ((∀ s < dim + 2, G s = - F s) ↔
      waveSpeedL dim γ UL UR (unit dim N) < 0 ∨ 0 < waveSpeedR dim γ UL UR (unit dim N)) ∧
    (¬ (waveSpeedL dim γ UL UR (unit dim N) < 0 ∨ 0 < waveSpeedR dim γ UL UR (unit dim N)) →
      0 < F 0 ∧ 0 < G 0) := by
  have key : ¬ (waveSpeedL dim γ UL UR (unit dim N) < 0 ∨ 0 < waveSpeedR dim γ UL UR (unit dim N)) →
      0 < F 0 ∧ 0 < G 0 := by
    intro hc
    push Not at hc
    have hNp : 0 < inner' dim N N := lt_of_le_of_ne
      (Finset.sum_nonneg fun i _ => mul_self_nonneg (N i)) hN.symm
    have hsq := Real.sqrt_pos.2 hNp
    have hu : ∀ a : ℕ → ℝ, inner' dim a N = Real.sqrt (inner' dim N N) * inner' dim a (unit dim N) := by
      intro a
      have e : inner' dim a (unit dim N) = inner' dim a N / Real.sqrt (inner' dim N N) := by
        rw [inner', inner', div_eq_mul_inv, sum_mul]
        exact sum_congr rfl fun i _ => by rw [unit, div_eq_mul_inv, mul_assoc]
      rw [e, mul_div_cancel₀ _ hsq.ne']
    have h1 := waveSpeedL_lt (UR := UR) (n := unit dim N) hγ hL
    have h2 := waveSpeedR_gt (UL := UL) (n := unit dim N) hγ hR
    rw [C32_upwind_left dim γ hγ UL UR N F0 F hL hR hN hF hc.1 0 (by omega),
      C32_upwind_left dim γ hγ UR UL (fun i => - N i) F1 G hR hL (by rwa [inner_neg_neg]) hG
        (by rw [unit_neg, waveSpeedL_swap]; linarith [hc.2]) 0 (by omega), eulerFlux_neg]
    simp only [eulerFlux, if_true]
    rw [hu (vel UL), hu (vel UR)]
    have := hL.ρ_pos
    have := hR.ρ_pos
    have a1 : 0 < inner' dim (vel UL) (unit dim N) := by linarith [hc.1]
    have a2 : 0 < - inner' dim (vel UR) (unit dim N) := by linarith [hc.2]
    refine ⟨by positivity, ?_⟩
    have : 0 < UR 0 * (Real.sqrt (inner' dim N N) * - inner' dim (vel UR) (unit dim N)) := by positivity
    linarith
  refine ⟨⟨fun h => ?_, fun h => ?_⟩, key⟩
  · by_contra hc
    obtain ⟨a, b⟩ := key hc
    have := h 0 (by omega)
    linarith
  · obtain ⟨G', e, h'⟩ := C32_antisymmetric dim γ hγ UL UR N F0 F1 F hL hR hN hF h
    obtain rfl := Option.some_inj.mp (hG.symm.trans e)
    exact h'

/-- C32, the antisymmetry fails: two opposite Mach-3 streams.  Both orderings give the flux of their
own left state, so the mass fluxes are equal instead of opposite. -/
theorem C32_antisymmetry_fails (dim : ℕ) (hd : 0 < dim) : ∃ (N : ℕ → ℝ) (F G : ℕ → ℝ),
    inner' dim N N = 1 ∧ hllc dim (7/5) (exGas dim 3) (exGas dim (-3)) N 0 = some F ∧
    hllc dim (7/5) (exGas dim (-3)) (exGas dim 3) (fun i => - N i) 0 = some G ∧
    F 0 = 21 / 5 ∧ G 0 = 21 / 5 := by
  let N : ℕ → ℝ := fun i => if i = 0 then 1 else 0
  have hN : ∀ b : ℕ → ℝ, inner' dim b N = b 0 := fun b => by
    unfold inner'
    rw [sum_eq_single 0]
    · simp [N]
    · intro i _ h; simp [N, h]
    · intro h; exact absurd (mem_range.mpr hd) h
  have hNN : inner' dim N N = 1 := by rw [hN]; simp [N]
  have hγ : (1 : ℝ) < 7 / 5 := by norm_num
  have A := exGas_admissible dim hd 3
  have B := exGas_admissible dim hd (-3)
  obtain ⟨F, hF⟩ := C32_no_failure dim _ hγ _ _ N 0 A B (by rw [hNN]; norm_num)
  obtain ⟨G, hG⟩ := C32_no_failure dim _ hγ _ _ (fun i => - N i) 0 B A
    (by rw [inner_neg_neg, hNN]; norm_num)
  have hunit : unit dim N = N := by funext i; simp [unit, hNN]
  have hsq : Real.sqrt (23 / 5) ≤ 3 := by
    rw [show (3 : ℝ) = Real.sqrt 9 by rw [show (9:ℝ) = 3 ^ 2 by norm_num, Real.sqrt_sq (by norm_num)]]
    exact Real.sqrt_le_sqrt (by norm_num)
  have hpv : pvrsPressure (7 / 5) 3 1 1 (7 / 5) (-3) 1 1 = 26 / 5 := by
    unfold pvrsPressure; norm_num
  have hq : shockFactor (7 / 5) (26 / 5) 1 = Real.sqrt (23 / 5) := by
    unfold shockFactor; norm_num
  have v3 : inner' dim (vel (exGas dim 3)) N = 3 := by rw [hN]; simp [vel, exGas]
  have vm3 : inner' dim (vel (exGas dim (-3))) N = -3 := by rw [hN]; norm_num [vel, exGas]
  have g0 : ∀ u, exGas dim u 0 = 7 / 5 := fun u => by simp [exGas]
  have wL : 0 ≤ waveSpeedL dim (7/5) (exGas dim 3) (exGas dim (-3)) N := by
    unfold waveSpeedL
    rw [v3, vm3, exGas_pressure dim hd, exGas_pressure dim hd, exGas_sound dim hd,
      exGas_sound dim hd, g0, g0, hpv, hq]
    linarith
  have wR : waveSpeedR dim (7/5) (exGas dim 3) (exGas dim (-3)) N ≤ 0 := by
    unfold waveSpeedR
    rw [v3, vm3, exGas_pressure dim hd, exGas_pressure dim hd, exGas_sound dim hd,
      exGas_sound dim hd, g0, g0, hpv, hq]
    linarith
  refine ⟨N, F, G, hNN, hF, hG, ?_, ?_⟩
  · rw [C32_upwind_left dim _ hγ _ _ N 0 F A B (by rw [hNN]; norm_num) hF (by rwa [hunit]) 0 (by omega)]
    simp only [eulerFlux, if_true, v3, g0]; norm_num
  · rw [C32_upwind_left dim _ hγ _ _ _ 0 G B A (by rw [inner_neg_neg, hNN]; norm_num) hG
      (by rw [unit_neg, hunit, waveSpeedL_swap]; linarith) 0 (by omega)]
    simp only [eulerFlux, if_true, inner_neg_right, vm3, g0]; norm_num

/-- the hypotheses of the antisymmetry theorem are met by two different subsonic states: a
stationary gas and one moving at half the speed of sound -/
example : Admissible 2 (7/5) (exGas 2 0) ∧ Admissible 2 (7/5) (exGas 2 (1/2)) ∧
    waveSpeedL 2 (7/5) (exGas 2 0) (exGas 2 (1/2)) (fun i => if i = 0 then 1 else 0) < 0 := by
  refine ⟨exGas_admissible 2 (by norm_num) _, exGas_admissible 2 (by norm_num) _, ?_⟩
  have := waveSpeedL_lt (UR := exGas 2 (1/2)) (n := fun i => if i = 0 then 1 else 0)
    (by norm_num : (1:ℝ) < 7/5) (exGas_admissible 2 (by norm_num) 0)
  rw [exGas_inner 2 (by norm_num)] at this
  simpa using this

/-- C32: in the region between the two outer waves the flux is that of a gas moving with the contact
speed: the two sides of the contact have the same pressure and normal velocity, so the flux is
continuous there up to the transport of the star state. -/
theorem C32_star_region (dim : ℕ) (γ : ℝ) (hγ : 1 < γ) (UL UR N F0 F : ℕ → ℝ)
    (hL : Admissible dim γ UL) (hR : Admissible dim γ UR) (hN : inner' dim N N ≠ 0)
    (hF : hllc dim γ UL UR N F0 = some F)
    (h1 : waveSpeedL dim γ UL UR (unit dim N) < 0) (h2 : 0 < waveSpeedR dim γ UL UR (unit dim N)) :
    ∃ (W : ℕ → ℝ) (pS : ℝ), pS = starPressure dim γ UL (unit dim N) (waveSpeedL dim γ UL UR (unit dim N))
        (contactSpeed dim γ UL UR (unit dim N)) ∧
      pS = starPressure dim γ UR (unit dim N) (waveSpeedR dim γ UL UR (unit dim N))
        (contactSpeed dim γ UL UR (unit dim N)) ∧ 0 < W 0 ∧
      let m := Real.sqrt (inner' dim N N) * contactSpeed dim γ UL UR (unit dim N)
      F 0 = m * W 0 ∧ (∀ i < dim, F (i + 1) = m * W (i + 1) + pS * N i) ∧
      F (dim + 1) = m * (W (dim + 1) + pS) := by
  obtain ⟨_, e, h⟩ := hllc_spec dim γ hγ UL UR N F0 hL hR hN
  obtain rfl := Option.some_inj.mp (hF.symm.trans e)
  have wl := waveSpeedL_lt (UR := UR) (n := unit dim N) hγ hL
  have wr := waveSpeedR_gt (UL := UL) (n := unit dim N) hγ hR
  have hcp := contact_pressure (n := unit dim N) hγ hL hR
  have hd := sqrt_inner_pos hN
  have hNu : ∀ i, Real.sqrt (inner' dim N N) * unit dim N i = N i := fun i => by
    unfold unit; field_simp
  set n := unit dim N with hn
  set sL := waveSpeedL dim γ UL UR n with hsL
  set sR := waveSpeedR dim γ UL UR n with hsR
  set sS := contactSpeed dim γ UL UR n with hsS
  by_cases hS : 0 ≤ sS
  · have f : ∀ s < dim + 2, F s = Real.sqrt (inner' dim N N) * (eulerFlux dim γ UL n s
        + sL * (starState dim γ UL n sL sS s - UL s)) := fun s hs => by
      rw [h s hs, hllcFlux]
      simp only [← hsL, ← hsR, ← hsS, if_neg (not_le.mpr h1), if_neg (not_le.mpr h2), if_pos hS]
    have st := fun s => star_flux dim γ sL sS UL n s hL.ρ_pos.ne'
      (by linarith : sL - sS < 0).ne (by linarith : sL - inner' dim (vel UL) n < 0).ne
    refine ⟨starState dim γ UL n sL sS, _, rfl, hcp, ?_, ?_, fun i hi => ?_, ?_⟩
    · simp only [starState, if_true]
      exact mul_pos hL.ρ_pos (div_pos_of_neg_of_neg (by linarith) (by linarith))
    · have := st 0
      simp only [if_true, show 0 < dim + 1 by omega] at this
      rw [f 0 (by omega), this]; ring
    · have := st (i + 1)
      simp only [Nat.succ_ne_zero, if_false, if_true, show i + 1 < dim + 1 by omega,
        Nat.add_sub_cancel] at this
      rw [f (i + 1) (by omega), this, ← hNu i]; ring
    · have := st (dim + 1)
      simp only [Nat.succ_ne_zero, if_false, Nat.lt_irrefl] at this
      rw [f (dim + 1) (by omega), this]; ring
  · have f : ∀ s < dim + 2, F s = Real.sqrt (inner' dim N N) * (eulerFlux dim γ UR n s
        + sR * (starState dim γ UR n sR sS s - UR s)) := fun s hs => by
      rw [h s hs, hllcFlux]
      simp only [← hsL, ← hsR, ← hsS, if_neg (not_le.mpr h1), if_neg (not_le.mpr h2), if_neg hS]
    push Not at hS
    have st := fun s => star_flux dim γ sR sS UR n s hR.ρ_pos.ne'
      (by linarith : 0 < sR - sS).ne' (by linarith : 0 < sR - inner' dim (vel UR) n).ne'
    refine ⟨starState dim γ UR n sR sS, _, rfl, hcp, ?_, ?_, fun i hi => ?_, ?_⟩
    · simp only [starState, if_true]
      exact mul_pos hR.ρ_pos (div_pos (by linarith) (by linarith))
    · have := st 0
      simp only [if_true, show 0 < dim + 1 by omega] at this
      rw [f 0 (by omega), this]; ring
    · have := st (i + 1)
      simp only [Nat.succ_ne_zero, if_false, if_true, show i + 1 < dim + 1 by omega,
        Nat.add_sub_cancel] at this
      rw [f (i + 1) (by omega), this, ← hNu i, hcp]; ring
    · have := st (dim + 1)
      simp only [Nat.succ_ne_zero, if_false, Nat.lt_irrefl] at this
      rw [f (dim + 1) (by omega), this, hcp]; ring

end DG
