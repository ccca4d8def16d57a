import Mathlib.Analysis.SpecialFunctions.Sqrt

/-! The compressible Euler equations of an ideal gas, written independently of the code: conserved
variables `U = (ρ, ρ v, E)`, pressure, sound speed and the flux through a surface with normal `N`. -/
namespace DG
open Finset

/-- `a · b` in `dim` dimensions -/
def inner' (dim : ℕ) (a b : ℕ → ℝ) : ℝ := ∑ i ∈ range dim, a i * b i

/-- velocity component `i` -/
noncomputable def vel (U : ℕ → ℝ) (i : ℕ) : ℝ := U (i + 1) / U 0

/-- internal energy per unit volume: total minus kinetic energy -/
noncomputable def internalEnergy (dim : ℕ) (U : ℕ → ℝ) : ℝ :=
  U (dim + 1) - 1 / 2 * U 0 * inner' dim (vel U) (vel U)

/-- ideal-gas pressure -/
noncomputable def pressure (dim : ℕ) (γ : ℝ) (U : ℕ → ℝ) : ℝ := (γ - 1) * internalEnergy dim U

/-- speed of sound -/
noncomputable def soundSpeed (dim : ℕ) (γ : ℝ) (U : ℕ → ℝ) : ℝ :=
  Real.sqrt (γ * pressure dim γ U / U 0)

/-- Flux of conserved variable `s` through a surface with normal `N`: transport by the normal
velocity plus the pressure force and its work. -/
noncomputable def eulerFlux (dim : ℕ) (γ : ℝ) (U N : ℕ → ℝ) (s : ℕ) : ℝ :=
  if s = 0 then U 0 * inner' dim (vel U) N
  else if s < dim + 1 then U s * inner' dim (vel U) N + pressure dim γ U * N (s - 1)
  else (U (dim + 1) + pressure dim γ U) * inner' dim (vel U) N

/-- unit vector in direction `j` -/
def axis (j : ℕ) : ℕ → ℝ := fun i => if i = j then 1 else 0

/-- A physically admissible state: positive density and pressure. -/
structure Admissible (dim : ℕ) (γ : ℝ) (U : ℕ → ℝ) : Prop where
  ρ_pos : 0 < U 0
  p_pos : 0 < pressure dim γ U

/-- PVRS estimate of the pressure between two states (Toro, *Riemann Solvers*, eq. 10.61), with
normal velocities `uL`, `uR`. -/
noncomputable def pvrsPressure (ρL uL pL aL ρR uR pR aR : ℝ) : ℝ :=
  max 0 ((pL + pR) / 2 - (uR - uL) / 2 * ((ρL + ρR) / 2) * ((aL + aR) / 2))

/-- the shock factor of Toro eq. 10.60 -/
noncomputable def shockFactor (γ pStar p : ℝ) : ℝ :=
  if pStar ≤ p then 1 else Real.sqrt (1 + (γ + 1) / (2 * γ) * (pStar / p - 1))

/-- Left wave speed estimate (Toro eq. 10.59) for the unit normal `n`. -/
noncomputable def waveSpeedL (dim : ℕ) (γ : ℝ) (UL UR n : ℕ → ℝ) : ℝ :=
  inner' dim (vel UL) n - soundSpeed dim γ UL * shockFactor γ
    (pvrsPressure (UL 0) (inner' dim (vel UL) n) (pressure dim γ UL) (soundSpeed dim γ UL)
      (UR 0) (inner' dim (vel UR) n) (pressure dim γ UR) (soundSpeed dim γ UR)) (pressure dim γ UL)

/-- Right wave speed estimate for the unit normal `n`. -/
noncomputable def waveSpeedR (dim : ℕ) (γ : ℝ) (UL UR n : ℕ → ℝ) : ℝ :=
  inner' dim (vel UR) n + soundSpeed dim γ UR * shockFactor γ
    (pvrsPressure (UL 0) (inner' dim (vel UL) n) (pressure dim γ UL) (soundSpeed dim γ UL)
      (UR 0) (inner' dim (vel UR) n) (pressure dim γ UR) (soundSpeed dim γ UR)) (pressure dim γ UR)

/-- the unit vector in the direction of `N` -/
noncomputable def unit (dim : ℕ) (N : ℕ → ℝ) : ℕ → ℝ := fun i => N i / Real.sqrt (inner' dim N N)

/-- Speed of the contact wave (Toro eq. 10.37) between waves of speed `sL` and `sR`. -/
noncomputable def contactSpeed (dim : ℕ) (γ : ℝ) (UL UR n : ℕ → ℝ) : ℝ :=
  let uL := inner' dim (vel UL) n
  let uR := inner' dim (vel UR) n
  let sL := waveSpeedL dim γ UL UR n
  let sR := waveSpeedR dim γ UL UR n
  (pressure dim γ UR - pressure dim γ UL + UL 0 * uL * (sL - uL) - UR 0 * uR * (sR - uR))
    / (UL 0 * (sL - uL) - UR 0 * (sR - uR))

/-- State between the wave of speed `S` next to `U` and the contact of speed `Ss` (Toro eq. 10.39):
the normal velocity becomes `Ss`, the tangential velocity is kept. -/
noncomputable def starState (dim : ℕ) (γ : ℝ) (U n : ℕ → ℝ) (S Ss : ℝ) (s : ℕ) : ℝ :=
  let u := inner' dim (vel U) n
  let c := (S - u) / (S - Ss)
  if s = 0 then U 0 * c
  else if s < dim + 1 then U 0 * c * (vel U (s - 1) + (Ss - u) * n (s - 1))
  else c * (U (dim + 1) + U 0 * (Ss - u) * (Ss + pressure dim γ U / (U 0 * (S - u))))

/-- The HLLC flux for the unit normal `n` (Toro eq. 10.71 with the star fluxes of 10.72). -/
noncomputable def hllcFlux (dim : ℕ) (γ : ℝ) (UL UR n : ℕ → ℝ) (s : ℕ) : ℝ :=
  let sL := waveSpeedL dim γ UL UR n
  let sR := waveSpeedR dim γ UL UR n
  let sS := contactSpeed dim γ UL UR n
  if 0 ≤ sL then eulerFlux dim γ UL n s
  else if sR ≤ 0 then eulerFlux dim γ UR n s
  else if 0 ≤ sS then eulerFlux dim γ UL n s + sL * (starState dim γ UL n sL sS s - UL s)
  else eulerFlux dim γ UR n s + sR * (starState dim γ UR n sR sS s - UR s)

end DG
