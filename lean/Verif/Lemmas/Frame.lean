import Verif.Spec.Frame

/-! The physics in another frame. -/
namespace DG
open Finset

variable {dim : ℕ} (F : Frame dim)

namespace Frame

theorem turn_eq {x : ℕ → ℝ} {d : ℕ} (h : d < dim) : F.turn x d = ∑ j ∈ range dim, F.Q d j * x j := if_pos h

theorem turn_congr {x y : ℕ → ℝ} (h : ∀ j < dim, x j = y j) : F.turn x = F.turn y := by
  funext d
  unfold turn
  split_ifs
  · exact sum_congr rfl fun j hj => by rw [h j (mem_range.1 hj)]
  · rfl

theorem turn_smul (c : ℝ) (x : ℕ → ℝ) (d : ℕ) : F.turn (fun j => c * x j) d = c * F.turn x d := by
  unfold turn
  split_ifs
  · rw [mul_sum]; exact sum_congr rfl fun j _ => by ring
  · ring

theorem turn_add (x y : ℕ → ℝ) (d : ℕ) : F.turn (fun j => x j + y j) d = F.turn x d + F.turn y d := by
  unfold turn
  split_ifs
  · rw [← sum_add_distrib]; exact sum_congr rfl fun j _ => by ring
  · ring

theorem turn_sum {ι : Type} (A : Finset ι) (x : ι → ℕ → ℝ) (d : ℕ) :
    F.turn (fun j => ∑ a ∈ A, x a j) d = ∑ a ∈ A, F.turn (x a) d := by
  unfold turn
  split_ifs
  · rw [sum_comm]; exact sum_congr rfl fun j _ => by rw [mul_sum]
  · simp

/-- rotations keep scalar products -/
theorem inner_turn (a b : ℕ → ℝ) : inner' dim (F.turn a) (F.turn b) = inner' dim a b := by
  unfold inner'
  have h : ∀ k ∈ range dim, F.turn a k * F.turn b k =
      ∑ i ∈ range dim, ∑ j ∈ range dim, a i * b j * (F.Q k i * F.Q k j) := by
    intro k hk
    rw [F.turn_eq (mem_range.1 hk), F.turn_eq (mem_range.1 hk), sum_mul_sum]
    exact sum_congr rfl fun i _ => sum_congr rfl fun j _ => by ring
  rw [sum_congr rfl h, sum_comm]
  refine sum_congr rfl fun i hi => ?_
  rw [sum_comm]
  rw [sum_eq_single i]
  · rw [← mul_sum, F.orth i (mem_range.1 hi) i (mem_range.1 hi), if_pos rfl, mul_one]
  · intro j hj hne
    rw [← mul_sum, F.orth i (mem_range.1 hi) j (mem_range.1 hj), if_neg (Ne.symm hne), mul_zero]
  · intro h; exact absurd hi h

theorem inner_congr {a a' b b' : ℕ → ℝ} (ha : ∀ i < dim, a i = a' i) (hb : ∀ i < dim, b i = b' i) :
    inner' dim a b = inner' dim a' b' :=
  sum_congr rfl fun i hi => by rw [ha i (mem_range.1 hi), hb i (mem_range.1 hi)]

theorem inner_smul_left (c : ℝ) (a b : ℕ → ℝ) : inner' dim (fun i => c * a i) b = c * inner' dim a b := by
  unfold inner'; rw [mul_sum]; exact sum_congr rfl fun i _ => by ring

theorem inner_smul_right (c : ℝ) (a b : ℕ → ℝ) : inner' dim a (fun i => c * b i) = c * inner' dim a b := by
  unfold inner'; rw [mul_sum]; exact sum_congr rfl fun i _ => by ring

theorem state_zero (U : ℕ → ℝ) : F.state U 0 = F.dens * U 0 := if_pos rfl

theorem state_mom (U : ℕ → ℝ) {i : ℕ} (h : i < dim) :
    F.state U (i + 1) = F.dens * F.speed * F.turn (fun i => U (i + 1)) i := by
  unfold state
  rw [if_neg (by omega), if_pos (by omega)]
  rfl

theorem state_energy (U : ℕ → ℝ) : F.state U (dim + 1) = F.dens * F.speed ^ 2 * U (dim + 1) := by
  unfold state
  rw [if_neg (by omega), if_neg (by omega), if_pos rfl]

theorem state_smul (c : ℝ) (U : ℕ → ℝ) (s : ℕ) : F.state (fun k => c * U k) s = c * F.state U s := by
  unfold state
  split_ifs
  · ring
  · rw [F.turn_smul]; ring
  · ring
  · ring

theorem state_add (U V : ℕ → ℝ) (s : ℕ) : F.state (fun k => U k + V k) s = F.state U s + F.state V s := by
  unfold state
  split_ifs
  · ring
  · rw [F.turn_add]; ring
  · ring
  · ring

theorem state_sum {ι : Type} (A : Finset ι) (U : ι → ℕ → ℝ) (s : ℕ) :
    F.state (fun k => ∑ a ∈ A, U a k) s = ∑ a ∈ A, F.state (U a) s := by
  unfold state
  split_ifs
  · rw [mul_sum]
  · rw [F.turn_sum, mul_sum]
  · rw [mul_sum]
  · simp

theorem state_congr {U V : ℕ → ℝ} (h : ∀ s < dim + 2, U s = V s) : F.state U = F.state V := by
  funext s
  unfold state
  rw [h 0 (by omega), h (dim + 1) (by omega), F.turn_congr fun j hj => h (j + 1) (by omega)]

/-! ### thermodynamics -/

theorem vel_state (U : ℕ → ℝ) {i : ℕ} (h : i < dim) : vel (F.state U) i = F.speed * F.turn (vel U) i := by
  have hd := F.dens_pos.ne'
  unfold vel
  rw [F.state_mom U h, F.state_zero]
  have : F.turn (fun i => U (i + 1) / U 0) i = F.turn (fun i => U (i + 1)) i / U 0 := by
    have e : (fun i => U (i + 1) / U 0) = fun i => (U 0)⁻¹ * U (i + 1) := by funext i; rw [div_eq_inv_mul]
    rw [e, F.turn_smul (U 0)⁻¹ fun i => U (i + 1), div_eq_inv_mul]
  rw [this, mul_assoc, mul_div_mul_left _ _ hd, mul_div_assoc]

theorem inner_vel_state (U N : ℕ → ℝ) : inner' dim (vel (F.state U)) (F.turn N) = F.speed * inner' dim (vel U) N := by
  rw [inner_congr (fun i hi => F.vel_state U hi) fun _ _ => rfl, inner_smul_left, F.inner_turn]

theorem inner_vel_vel (U : ℕ → ℝ) :
    inner' dim (vel (F.state U)) (vel (F.state U)) = F.speed ^ 2 * inner' dim (vel U) (vel U) := by
  rw [inner_congr (fun i hi => F.vel_state U hi) fun i hi => F.vel_state U hi, inner_smul_left, inner_smul_right,
    F.inner_turn]
  ring

theorem pressure_state (γ : ℝ) (U : ℕ → ℝ) :
    pressure dim γ (F.state U) = F.dens * F.speed ^ 2 * pressure dim γ U := by
  unfold pressure internalEnergy
  rw [F.inner_vel_vel, F.state_energy, F.state_zero]
  ring

theorem sound_state (γ : ℝ) (U : ℕ → ℝ) : soundSpeed dim γ (F.state U) = F.speed * soundSpeed dim γ U := by
  unfold soundSpeed
  rw [F.pressure_state, F.state_zero]
  have hd := F.dens_pos.ne'
  have : γ * (F.dens * F.speed ^ 2 * pressure dim γ U) / (F.dens * U 0) =
      F.speed ^ 2 * (γ * pressure dim γ U / U 0) := by
    rw [show γ * (F.dens * F.speed ^ 2 * pressure dim γ U) = F.dens * (F.speed ^ 2 * (γ * pressure dim γ U)) by ring,
      mul_div_mul_left _ _ hd, mul_div_assoc]
  rw [this, Real.sqrt_mul (by positivity), Real.sqrt_sq F.speed_pos.le]

theorem maxSpeed_state (γ : ℝ) (U : ℕ → ℝ) : maxSpeed dim γ (F.state U) = F.speed * maxSpeed dim γ U := by
  unfold maxSpeed
  rw [F.inner_vel_vel, F.sound_state, Real.sqrt_mul (by positivity), Real.sqrt_sq F.speed_pos.le]
  ring

theorem admissible_state {γ : ℝ} {U : ℕ → ℝ} (h : Admissible dim γ U) : Admissible dim γ (F.state U) := by
  have h1 := F.dens_pos
  have h2 := F.speed_pos
  constructor
  · rw [F.state_zero]; exact mul_pos h1 h.ρ_pos
  · rw [F.pressure_state]; exact mul_pos (by positivity) h.p_pos

/-! ### fluxes -/

/-- the flux vector transforms as a state with an extra factor of velocity and the area factor `k` -/
theorem eulerFlux_state (γ k : ℝ) (U N : ℕ → ℝ) {s : ℕ} (hs : s < dim + 2) :
    eulerFlux dim γ (F.state U) (fun j => k * F.turn N j) s = k * F.speed * F.state (eulerFlux dim γ U N) s := by
  have hi : inner' dim (vel (F.state U)) (fun j => k * F.turn N j) = k * (F.speed * inner' dim (vel U) N) := by
    rw [inner_smul_right, F.inner_vel_state]
  have h0 : F.state (eulerFlux dim γ U N) 0 = F.dens * (U 0 * inner' dim (vel U) N) := by
    rw [F.state_zero]; rfl
  rcases Nat.eq_zero_or_pos s with rfl | hpos
  · rw [h0]
    show F.state U 0 * _ = _
    rw [hi, F.state_zero]; ring
  · rcases lt_or_ge s (dim + 1) with hlt | hge
    · obtain ⟨i, rfl⟩ : ∃ i, s = i + 1 := ⟨s - 1, by omega⟩
      have hid : i < dim := by omega
      have e1 : ∀ (V M : ℕ → ℝ) (j : ℕ), j < dim → eulerFlux dim γ V M (j + 1) =
          V (j + 1) * inner' dim (vel V) M + pressure dim γ V * M j := by
        intro V M j hj
        unfold eulerFlux
        rw [if_neg (by omega), if_pos (by omega)]
        rfl
      rw [e1 _ _ i hid, hi, F.state_mom _ hid, F.state_mom _ hid, F.pressure_state]
      have e2 : F.turn (fun i => eulerFlux dim γ U N (i + 1)) i =
          inner' dim (vel U) N * F.turn (fun i => U (i + 1)) i + pressure dim γ U * F.turn N i := by
        rw [← F.turn_smul, ← F.turn_smul, ← F.turn_add]
        exact congrFun (F.turn_congr fun j hj => by rw [e1 _ _ j hj]; ring) i
      rw [e2]; ring
    · have hse : s = dim + 1 := by omega
      subst hse
      have e1 : ∀ (V M : ℕ → ℝ), eulerFlux dim γ V M (dim + 1) =
          (V (dim + 1) + pressure dim γ V) * inner' dim (vel V) M := by
        intro V M
        unfold eulerFlux
        rw [if_neg (by omega), if_neg (by omega)]
      rw [e1, hi, F.state_energy, F.state_energy, e1, F.pressure_state]
      ring

theorem pvrs_state (ρL uL pL aL ρR uR pR aR : ℝ) :
    pvrsPressure (F.dens * ρL) (F.speed * uL) (F.dens * F.speed ^ 2 * pL) (F.speed * aL)
      (F.dens * ρR) (F.speed * uR) (F.dens * F.speed ^ 2 * pR) (F.speed * aR) =
    F.dens * F.speed ^ 2 * pvrsPressure ρL uL pL aL ρR uR pR aR := by
  unfold pvrsPressure
  have h1 := F.dens_pos
  have h2 := F.speed_pos
  rw [mul_max_of_nonneg _ _ (by positivity), mul_zero]
  congr 1
  ring

theorem shock_state (γ pStar p : ℝ) :
    shockFactor γ (F.dens * F.speed ^ 2 * pStar) (F.dens * F.speed ^ 2 * p) = shockFactor γ pStar p := by
  unfold shockFactor
  have h1 := F.dens_pos
  have h2 := F.speed_pos
  have h3 : 0 < F.dens * F.speed ^ 2 := by positivity
  simp only [mul_le_mul_iff_right₀ h3, mul_div_mul_left _ _ h3.ne']

theorem waveL_state (γ : ℝ) (UL UR n : ℕ → ℝ) :
    waveSpeedL dim γ (F.state UL) (F.state UR) (F.turn n) = F.speed * waveSpeedL dim γ UL UR n := by
  unfold waveSpeedL
  simp only [F.inner_vel_state, F.pressure_state, F.sound_state, F.state_zero, F.pvrs_state, F.shock_state]
  ring

theorem waveR_state (γ : ℝ) (UL UR n : ℕ → ℝ) :
    waveSpeedR dim γ (F.state UL) (F.state UR) (F.turn n) = F.speed * waveSpeedR dim γ UL UR n := by
  unfold waveSpeedR
  simp only [F.inner_vel_state, F.pressure_state, F.sound_state, F.state_zero, F.pvrs_state, F.shock_state]
  ring

theorem contact_state (γ : ℝ) (UL UR n : ℕ → ℝ) :
    contactSpeed dim γ (F.state UL) (F.state UR) (F.turn n) = F.speed * contactSpeed dim γ UL UR n := by
  unfold contactSpeed
  simp only [F.inner_vel_state, F.pressure_state, F.state_zero, F.waveL_state, F.waveR_state]
  have h1 := F.dens_pos
  have h2 := F.speed_pos
  have h3 : F.dens * F.speed ≠ 0 := by positivity
  rw [show ∀ a b c d e f g h : ℝ, F.dens * F.speed ^ 2 * a - F.dens * F.speed ^ 2 * b +
      F.dens * c * (F.speed * d) * (F.speed * e - F.speed * d) - F.dens * f * (F.speed * g) * (F.speed * h - F.speed * g)
      = F.dens * F.speed * (F.speed * (a - b + c * d * (e - d) - f * g * (h - g))) from by intros; ring,
    show ∀ c d e f g h : ℝ, F.dens * c * (F.speed * e - F.speed * d) - F.dens * f * (F.speed * h - F.speed * g)
      = F.dens * F.speed * (c * (e - d) - f * (h - g)) from by intros; ring,
    mul_div_mul_left _ _ h3, mul_div_assoc]

theorem star_state (γ S Ss : ℝ) (U n : ℕ → ℝ) {s : ℕ} (hs : s < dim + 2) :
    starState dim γ (F.state U) (F.turn n) (F.speed * S) (F.speed * Ss) s =
      F.state (starState dim γ U n S Ss) s := by
  have h1 := F.dens_pos
  have h2 := F.speed_pos
  set c := (S - inner' dim (vel U) n) / (S - Ss) with hc
  have hcc : (F.speed * S - F.speed * inner' dim (vel U) n) / (F.speed * S - F.speed * Ss) = c := by
    rw [← mul_sub, ← mul_sub, mul_div_mul_left _ _ h2.ne']
  have hp : F.dens * F.speed ^ 2 * pressure dim γ U / (F.dens * U 0 * (F.speed * S - F.speed * inner' dim (vel U) n)) =
      F.speed * (pressure dim γ U / (U 0 * (S - inner' dim (vel U) n))) := by
    rw [show F.dens * F.speed ^ 2 * pressure dim γ U = F.dens * F.speed * (F.speed * pressure dim γ U) by ring,
      show F.dens * U 0 * (F.speed * S - F.speed * inner' dim (vel U) n) =
        F.dens * F.speed * (U 0 * (S - inner' dim (vel U) n)) by ring,
      mul_div_mul_left _ _ (by positivity), mul_div_assoc]
  rcases Nat.eq_zero_or_pos s with rfl | hpos
  · rw [F.state_zero]
    simp only [starState, if_pos, F.inner_vel_state, F.state_zero, hcc, ← hc]
    ring
  · rcases lt_or_ge s (dim + 1) with hlt | hge
    · obtain ⟨i, rfl⟩ : ∃ i, s = i + 1 := ⟨s - 1, by omega⟩
      have hid : i < dim := by omega
      have e1 : ∀ (V m : ℕ → ℝ) (a b : ℝ) (j : ℕ), j < dim → starState dim γ V m a b (j + 1) =
          V 0 * ((a - inner' dim (vel V) m) / (a - b)) * (vel V j + (b - inner' dim (vel V) m) * m j) := by
        intro V m a b j hj
        simp only [starState]
        rw [if_neg (by omega), if_pos (by omega)]
        rfl
      rw [e1 _ _ _ _ i hid, F.state_mom _ hid, F.inner_vel_state, F.state_zero, hcc, F.vel_state U hid]
      have e2 : F.turn (fun i => starState dim γ U n S Ss (i + 1)) i =
          U 0 * c * F.turn (vel U) i + U 0 * c * (Ss - inner' dim (vel U) n) * F.turn n i := by
        rw [← F.turn_smul, ← F.turn_smul, ← F.turn_add]
        exact congrFun (F.turn_congr fun j hj => by rw [e1 _ _ _ _ j hj]; ring) i
      rw [e2]; ring
    · have hse : s = dim + 1 := by omega
      subst hse
      have e1 : ∀ (V m : ℕ → ℝ) (a b : ℝ), starState dim γ V m a b (dim + 1) =
          ((a - inner' dim (vel V) m) / (a - b)) * (V (dim + 1) + V 0 * (b - inner' dim (vel V) m) *
            (b + pressure dim γ V / (V 0 * (a - inner' dim (vel V) m)))) := by
        intro V m a b
        simp only [starState]
        rw [if_neg (by omega), if_neg (by omega)]
      rw [F.state_energy (starState dim γ U n S Ss), e1, e1, F.inner_vel_state, F.state_zero, F.state_energy, hcc,
        F.pressure_state, hp]
      ring

theorem hllc_state (γ : ℝ) (UL UR n : ℕ → ℝ) {s : ℕ} (hs : s < dim + 2) :
    hllcFlux dim γ (F.state UL) (F.state UR) (F.turn n) s = F.speed * F.state (hllcFlux dim γ UL UR n) s := by
  have h2 := F.speed_pos
  have hE : ∀ U, eulerFlux dim γ (F.state U) (F.turn n) s = F.speed * F.state (eulerFlux dim γ U n) s := by
    intro U
    have := F.eulerFlux_state γ 1 U n hs
    simpa using this
  have hlin : ∀ (U : ℕ → ℝ) (a : ℝ) (V : ℕ → ℝ), F.state (fun k => eulerFlux dim γ U n k + a * (V k - U k)) s =
      F.state (eulerFlux dim γ U n) s + a * (F.state V s - F.state U s) := by
    intro U a V
    rw [F.state_add, F.state_smul a fun k => V k - U k]
    have : F.state (fun k => V k - U k) s = F.state V s - F.state U s := by
      have e : (fun k => V k - U k) = fun k => V k + (-1) * U k := by funext k; ring
      rw [e, F.state_add, F.state_smul]; ring
    rw [this]
  unfold hllcFlux
  simp only [F.waveL_state, F.waveR_state, F.contact_state]
  have i1 : (0 ≤ F.speed * waveSpeedL dim γ UL UR n) ↔ 0 ≤ waveSpeedL dim γ UL UR n := by
    constructor
    · intro h; by_contra hc; push Not at hc; nlinarith
    · intro h; positivity
  have i2 : (F.speed * waveSpeedR dim γ UL UR n ≤ 0) ↔ waveSpeedR dim γ UL UR n ≤ 0 := by
    constructor
    · intro h; by_contra hc; push Not at hc; nlinarith
    · intro h; nlinarith
  have i3 : (0 ≤ F.speed * contactSpeed dim γ UL UR n) ↔ 0 ≤ contactSpeed dim γ UL UR n := by
    constructor
    · intro h; by_contra hc; push Not at hc; nlinarith
    · intro h; positivity
  simp only [i1, i2, i3, hE, F.star_state γ _ _ _ _ hs]
  split_ifs with c1 c2 c3
  · rfl
  · rfl
  · rw [hlin]; ring
  · rw [hlin]; ring

theorem unit_turn {k : ℝ} (hk : 0 < k) (N : ℕ → ℝ) :
    unit dim (fun j => k * F.turn N j) = F.turn (unit dim N) := by
  funext i
  unfold unit
  have e : inner' dim (fun j => k * F.turn N j) (fun j => k * F.turn N j) = k ^ 2 * inner' dim N N := by
    rw [inner_smul_left, inner_smul_right, F.inner_turn]; ring
  rw [e, Real.sqrt_mul (by positivity), Real.sqrt_sq hk.le, mul_div_mul_left _ _ hk.ne']
  have e2 : (fun i => N i / √(inner' dim N N)) = fun i => (√(inner' dim N N))⁻¹ * N i := by
    funext i; rw [div_eq_inv_mul]
  rw [e2, F.turn_smul, div_eq_inv_mul]

/-- both numerical fluxes transform as the exact flux does -/
theorem numFlux_state (f : NumericalFluxType) (γ : ℝ) {k : ℝ} (hk : 0 < k) (UL UR N : ℕ → ℝ) {s : ℕ} (hs : s < dim + 2) :
    eulerNumFlux f dim γ (F.state UL) (F.state UR) (fun j => k * F.turn N j) s =
      k * F.speed * F.state (eulerNumFlux f dim γ UL UR N) s := by
  have e : √(inner' dim (fun j => k * F.turn N j) (fun j => k * F.turn N j)) = k * √(inner' dim N N) := by
    rw [inner_smul_left, inner_smul_right, F.inner_turn, ← mul_assoc, ← sq, Real.sqrt_mul (by positivity),
      Real.sqrt_sq hk.le]
  cases f with
  | LaxFriedrichs =>
    have h2 := F.speed_pos
    show rusanovFlux _ _ _ _ _ _ = k * F.speed * F.state (rusanovFlux dim γ UL UR N) s
    have hR : rusanovFlux dim γ UL UR N = fun k => (1 / 2) * (eulerFlux dim γ UL N k + eulerFlux dim γ UR N k) +
        (-(√(inner' dim N N) * max (maxSpeed dim γ UL) (maxSpeed dim γ UR) / 2)) * (UR k + (-1) * UL k) := by
      funext k; unfold rusanovFlux; ring
    rw [hR, F.state_add, F.state_smul (1 / 2) fun k => eulerFlux dim γ UL N k + eulerFlux dim γ UR N k,
      F.state_smul _ fun k => UR k + (-1) * UL k, F.state_add, F.state_add, F.state_smul (-1) UL]
    unfold rusanovFlux
    rw [F.eulerFlux_state γ k _ _ hs, F.eulerFlux_state γ k _ _ hs, e, F.maxSpeed_state, F.maxSpeed_state,
      ← mul_max_of_nonneg _ _ h2.le]
    ring
  | HLLC =>
    show √_ * hllcFlux _ _ _ _ _ _ = k * F.speed * F.state (fun s => √(inner' dim N N) * hllcFlux dim γ UL UR (unit dim N) s) s
    rw [e, F.unit_turn hk, F.hllc_state γ _ _ _ hs, F.state_smul]
    ring

end Frame
end DG
