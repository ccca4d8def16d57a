import Mathlib.Analysis.SpecialFunctions.Pow.Real
import Mathlib.Analysis.SpecialFunctions.Trigonometric.Basic
import Mathlib.Analysis.SpecialFunctions.Sqrt
import Verif.Model.LinAlg

/-!
Model of `src/physics`: pressure, wave speed, convective flux, numerical fluxes, state functions
and the dispatch on the configured names.

Simplifications: `rtype` is ℝ (exact arithmetic).  Operations that leave the reals are *checked*:
a division by zero, the square root of a negative number, `pow` of a non-positive base, an
out-of-bounds access and a failed `assert` are the outcome `none`.  A state `U` is a function of
the variable index (`0` = density, `1..dim` = momentum, `dim+1` = energy; `NUM_STATE_VARS = dim + 2`
because `GLOBAL_NUM_SPECIES = 1`, base.h).  Output arrays are passed with their previous contents.
-/
namespace DG

/-- `x / y` on doubles; `none` = division by zero. (e.g. euler/functions.cpp:10-23) -/
noncomputable def cdiv (x y : ℝ) : Option ℝ := if y = 0 then none else some (x / y)

/-- `sqrt(x)`; `none` = NaN. (e.g. euler/functions.cpp:37-39) -/
noncomputable def csqrt (x : ℝ) : Option ℝ := if x < 0 then none else some (Real.sqrt x)

/-- `pow(x, y)` with a non-integer exponent; `none` for a base that is not positive (NaN for a
negative base; a zero base is left out of the model as well). (euler/functions.cpp:113, 134, 178-179) -/
noncomputable def cpow (x y : ℝ) : Option ℝ := if 0 < x then some (x ^ y) else none

/-- `Math::dot<N>`, linear_algebra.cpp:3-31: unrolled for N = 2, 3, 4, 5. -/
noncomputable def mathDot (n : ℕ) (a b : ℕ → ℝ) : ℝ :=
  match n with
  | 2 => dot2 a b
  | 3 => dot3 a b
  | 4 => dot4 a b
  | 5 => dot5 a b
  | n => dotN n a b

/-- `EulerFcnType::get_pressure<dim>`, euler/functions.cpp:10-23. -/
noncomputable def getPressure (dim : ℕ) (γ : ℝ) (U : ℕ → ℝ) : Option ℝ := do
  let mom := fun i => U (1 + i)
  let rKE ← cdiv (mathDot dim mom mom) (U 0)
  return (γ - 1) * (U (dim + 1) - 1 / 2 * rKE)

/-- `EulerFcnType::get_maxwavespeed<dim>`, euler/functions.cpp:25-40. -/
noncomputable def eulerMaxWaveSpeed (dim : ℕ) (γ : ℝ) (U : ℕ → ℝ) : Option ℝ := do
  let mom := fun i => U (1 + i)
  let rho1 ← cdiv 1 (U 0)
  let mm ← csqrt (mathDot dim mom mom)
  let sqrtrKE := mm * rho1
  let p ← getPressure dim γ U
  let c ← csqrt (γ * p * rho1)
  return sqrtrKE + c

/-- `EulerFcnType::conv_flux_interior<2>`, euler/functions.cpp:43-62. -/
noncomputable def convFlux2 (γ : ℝ) (U Fdir : ℕ → ℝ) : Option (ℕ → ℝ) := do
  let r1 ← cdiv 1 (U 0)
  let ru := U 1
  let rv := U 2
  let rE := U 3
  let P ← getPressure 2 γ U
  return fun k => match k with
    | 0 => ru
    | 1 => ru * ru * r1 + P
    | 2 => ru * rv * r1
    | 3 => (rE + P) * ru * r1
    | 4 => rv
    | 5 => ru * rv * r1
    | 6 => rv * rv * r1 + P
    | 7 => (rE + P) * rv * r1
    | k => Fdir k

/-- `EulerFcnType::conv_flux_interior<3>`, euler/functions.cpp:64-91. -/
noncomputable def convFlux3 (γ : ℝ) (U Fdir : ℕ → ℝ) : Option (ℕ → ℝ) := do
  let r1 ← cdiv 1 (U 0)
  let ru := U 1
  let rv := U 2
  let rw := U 3
  let rE := U 4
  let P ← getPressure 3 γ U
  return fun k => match k with
    | 0 => ru
    | 1 => ru * ru * r1 + P
    | 2 => ru * rv * r1
    | 3 => ru * rw * r1
    | 4 => (rE + P) * ru * r1
    | 5 => rv
    | 6 => rv * ru * r1
    | 7 => rv * rv * r1 + P
    | 8 => rv * rw * r1
    | 9 => (rE + P) * rv * r1
    | 10 => rw
    | 11 => rw * ru * r1
    | 12 => rw * rv * r1
    | 13 => rw * rw * r1 + P
    | 14 => (rE + P) * rw * r1
    | k => Fdir k

/-- The template specialisation selected by `dim`; only 2 and 3 exist, any other `dim` does not
link (modelled as `none`). (euler/functions.cpp:44-90) -/
noncomputable def convFlux (dim : ℕ) (γ : ℝ) (U Fdir : ℕ → ℝ) : Option (ℕ → ℝ) :=
  match dim with
  | 2 => convFlux2 γ U Fdir
  | 3 => convFlux3 γ U Fdir
  | _ => none

/-- `BaseConvNumFluxType::compute_flux_laxfriedrichs`, base/functions.cpp:33-89, for the physical
flux `flux` and wave speed `speed` of the physics object; `Fq0` is the uninitialised worker array,
`F0` the output array on entry. -/
noncomputable def laxFriedrichsWith (dim ns : ℕ) (flux : (ℕ → ℝ) → (ℕ → ℝ) → Option (ℕ → ℝ))
    (speed : (ℕ → ℝ) → Option ℝ) (UL UR N Fq0 F0 : ℕ → ℝ) : Option (ℕ → ℝ) := do
  let n_mag2 := loopSum dim fun i => N i * N i
  let n_mag ← csqrt n_mag2
  let _ ← cdiv 1 n_mag  -- the division of the next line
  let n_hat := fun i => N i / n_mag
  let Fq ← flux UL Fq0
  let FqL := fun s => loopSum dim fun d => Fq (s + d * ns) * n_hat d
  let Fq ← flux UR Fq
  let FqR := fun s => loopSum dim fun d => Fq (s + d * ns) * n_hat d
  let dU := fun s => UR s - UL s
  let a ← speed UL
  let aR ← speed UR
  let a := if aR > a then aR else a
  return fun s => if s < ns then n_mag * (1 / 2 * (FqL s + FqR s) - 1 / 2 * a * dU s) else F0 s

/-- Lax–Friedrichs with the Euler flux and wave speed. (base/base.cpp:52-53) -/
noncomputable def laxFriedrichs (dim : ℕ) (γ : ℝ) (UL UR N Fq0 F0 : ℕ → ℝ) : Option (ℕ → ℝ) :=
  laxFriedrichsWith dim (dim + 2) (convFlux dim γ) (eulerMaxWaveSpeed dim γ) UL UR N Fq0 F0

/-- `F[0] = ..; F[1+i] = .. (i < dim); F[dim+1] = ..` (euler/functions.cpp:241-283 and 345-388) -/
def writeFlux (dim : ℕ) (mass : ℝ) (mom : ℕ → ℝ) (energy : ℝ) (F0 : ℕ → ℝ) : ℕ → ℝ := fun s =>
  if s = 0 then mass else if s < dim + 1 then mom (s - 1) else if s = dim + 1 then energy else F0 s

/-- One `if (pStar / P > 1.) q = sqrt(1. + (gam+1.)/(2.*gam) * (pStar/P-1.));`,
euler/functions.cpp:230-233 (2D) and 333-336 (3D). -/
noncomputable def hllcQ (γ pStar P : ℝ) : Option ℝ := do
  let r ← cdiv pStar P
  if r > 1 then do
    let g ← cdiv (γ + 1) (2 * γ)
    csqrt (1 + g * (r - 1))
  else return 1

/-- `compute_flux_hllc`, euler/functions.cpp:196-296 (dim = 2) and 298-399 (dim = 3); the two
specialisations are the same text up to the dimension and the use of `Math::dot<3>`, which is the
expression written out in 2D. -/
noncomputable def hllc (dim : ℕ) (γ : ℝ) (UL UR N F0 : ℕ → ℝ) : Option (ℕ → ℝ) := do
  let djac ← csqrt (mathDot dim N N)
  let djac1 ← cdiv 1 djac
  let n := fun i => N i * djac1
  -- left state
  let rhoL := UL 0
  let rhoL1 ← cdiv 1 rhoL
  let unL := mathDot dim (fun i => UL (1 + i)) n * rhoL1
  let PL ← getPressure dim γ UL
  let aL ← csqrt (γ * PL * rhoL1)
  -- right state
  let rhoR := UR 0
  let rhoR1 ← cdiv 1 rhoR
  let unR := mathDot dim (fun i => UR (1 + i)) n * rhoR1
  let PR ← getPressure dim γ UR
  let aR ← csqrt (γ * PR * rhoR1)
  -- averages
  let rAvg := 1 / 2 * (rhoL + rhoR)
  let aAvg := 1 / 2 * (aL + aR)
  let pStar := max 0 (1 / 2 * (PL + PR - (unR - unL) * rAvg * aAvg))
  let qL ← hllcQ γ pStar PL
  let qR ← hllcQ γ pStar PR
  let sL := unL - aL * qL
  let sR := unR + aR * qR
  let sStar ← cdiv (PR - PL + rhoL * unL * (sL - unL) - rhoR * unR * (sR - unR))
    (rhoL * (sL - unL) - rhoR * (sR - unR))
  if sL ≥ 0 then
    return writeFlux dim (djac * rhoL * unL) (fun i => djac * (UL (1 + i) * unL + PL * n i))
      (djac * ((UL (dim + 1) + PL) * unL)) F0
  else if sR ≤ 0 then
    return writeFlux dim (djac * rhoR * unR) (fun i => djac * (UR (1 + i) * unR + PR * n i))
      (djac * (UR (dim + 1) + PR) * unR) F0
  else if sL < 0 ∧ sStar ≥ 0 then do
    let c ← cdiv (sL - unL) (sL - sStar)
    let factor1 := sStar - unL
    let q ← cdiv PL (rhoL * (sL - unL))
    let factor2 := sStar + q
    return writeFlux dim (djac * (rhoL * unL + rhoL * sL * (c - 1)))
      (fun i => djac * (UL (1 + i) * unL + PL * n i
        + sL * (UL (1 + i) * (c - 1) + rhoL * c * factor1 * n i)))
      (djac * ((UL (dim + 1) + PL) * unL
        + sL * (UL (dim + 1) * (c - 1) + rhoL * c * factor1 * factor2))) F0
  else if sStar < 0 ∧ sR > 0 then do
    let c ← cdiv (sR - unR) (sR - sStar)
    let factor1 := sStar - unR
    let q ← cdiv PR (rhoR * (sR - unR))
    let factor2 := sStar + q
    return writeFlux dim (djac * (rhoR * unR + rhoR * sR * (c - 1)))
      (fun i => djac * (UR (1 + i) * unR + PR * n i
        + sR * (UR (1 + i) * (c - 1) + rhoR * c * factor1 * n i)))
      (djac * ((UR (dim + 1) + PR) * unR
        + sR * (UR (dim + 1) * (c - 1) + rhoR * c * factor1 * factor2))) F0
  else none  -- assert(false)

/-- `EulerFcnType::set_state_isentropic_vortex` in 2D, euler/functions.cpp:94-145.  `data` is
`IC_data`, `Rg` the gas constant, `x` the physical point, `Uq` the output on entry. -/
noncomputable def vortex2 (data : List ℝ) (γ Rg : ℝ) (x : ℕ → ℝ) (t : ℝ) (Uq : ℕ → ℝ) :
    Option (ℕ → ℝ) := do
  let rhob ← data[0]?
  let ub ← data[1]?
  let vb ← data[2]?
  let pb ← data[3]?
  let vs ← data[4]?
  if Rg = 1 then do
    let Tb ← cdiv pb (rhob * Rg)
    let rg ← cpow rhob γ
    let s ← cdiv pb rg
    let xr := x 0 - ub * t
    let yr := x 1 - vb * t
    let r ← csqrt (xr ^ 2 + yr ^ 2)
    let dU := vs / (2 * Real.pi) * Real.exp (1 / 2 * (1 - r ^ 2))
    let du := dU * (-1) * yr
    let dv := dU * xr
    let q ← cdiv (-1 * (γ - 1) * vs ^ 2) (8 * γ * Real.pi ^ 2)
    let dT := q * Real.exp (1 - r ^ 2)
    let u := ub + du
    let v := vb + dv
    let T := Tb + dT
    let Ts ← cdiv T s
    let e ← cdiv 1 (γ - 1)
    let rho ← cpow Ts e
    let rhou := rho * u
    let rhov := rho * v
    let a ← cdiv (rho * Rg) (γ - 1)
    let b ← cdiv (1 / 2 * (rhou * rhou + rhov * rhov)) rho
    let rhoE := a * T + b
    return fun k => match k with
      | 0 => rho
      | 1 => rhou
      | 2 => rhov
      | 3 => rhoE
      | k => Uq k
  else none  -- assert(Rg == 1.0)

/-- `EulerFcnType::set_state_isentropic_vortex` in 3D, euler/functions.cpp:147-191. -/
noncomputable def vortex3 (γ : ℝ) (x : ℕ → ℝ) (_t : ℝ) (Uq : ℕ → ℝ) : Option (ℕ → ℝ) := do
  let rho0 : ℝ := 1
  let sos0 : ℝ := 1
  let L : ℝ := 1
  let Mach : ℝ := 1
  let radius : ℝ := L / 10
  let sigma : ℝ := 1
  let beta := Mach * 5 * Real.sqrt 2 / (4 * Real.pi) * Real.exp (1 / 2)
  let u0 := Mach * sos0
  let x1 := x 0 - 1 / 2
  let y1 := x 2 - 1 / 2
  let f := -(1 / 2) / (sigma * sigma) * (x1 * x1 + y1 * y1) / (radius * radius)
  let Omega := beta * Real.exp f
  let du := -y1 / radius * Omega
  let dv := x1 / radius * Omega
  let dT := -(γ - 1) / 2 * Omega * Omega
  let g1 ← cdiv 1 γ
  let e1 ← cdiv γ (γ - 1)
  let pw ← cpow (1 + dT) e1
  let p := g1 * pw
  let e2 ← cdiv 1 (γ - 1)
  let rho ← cpow (rho0 + dT) e2
  let m0 := rho * (u0 + du)
  let m1 : ℝ := 0
  let m2 := rho * dv
  let rKE ← cdiv (m0 * m0 + m1 * m1 + m2 * m2) rho
  let a ← cdiv p (γ - 1)
  let rhoE := a + 1 / 2 * rKE
  return fun k => match k with
    | 0 => rho
    | 1 => m0
    | 2 => m1
    | 3 => m2
    | 4 => rhoE
    | k => Uq k

/-- `set_state_uniform_2D/3D`, base/base.cpp:140-160: `IC_data[is]` for every `is < extent`. -/
noncomputable def setUniform (ns : ℕ) (data : List ℝ) (Uq : ℕ → ℝ) : Option (ℕ → ℝ) :=
  if ns ≤ data.length then some fun k => if k < ns then data.getD k 0 else Uq k else none

/-- `set_gaussian_state_2D`, base/base.cpp:162-178. -/
noncomputable def setGaussian (ns : ℕ) (data : List ℝ) (x : ℕ → ℝ) (Uq : ℕ → ℝ) : Option (ℕ → ℝ) :=
  if ns ≤ data.length then some fun k => if k < ns then
    data.getD k 0 * Real.sin (30 * x 0 * x 0 * x 1) * (x 0 + 1) * (x 1 + 1) else Uq k else none

/-- `set_smooth_sphere`, base/base.cpp:180-199 (`A = IC_data[is]` is read and not used). -/
noncomputable def setSphere (ns : ℕ) (data : List ℝ) (x : ℕ → ℝ) (Uq : ℕ → ℝ) : Option (ℕ → ℝ) :=
  let magR := Real.sqrt (x 0 * x 0 + x 1 * x 1 + x 2 * x 2)
  if ns ≤ data.length then some fun k => if k < ns then
    1 / 2 * (1 - 0) * (Real.tanh (Real.pi * (1 / 2 - magR) / (1 / 2)) + 1) + 0 else Uq k else none

/-- common/enums.h: the configuration enumerations used by the physics object. (common/enums.h:56-66) -/
inductive PhysicsType | Euler | NavierStokes deriving DecidableEq, Repr
/-- see `PhysicsType` (common/enums.h:81-91) -/
inductive NumericalFluxType | LaxFriedrichs | HLLC deriving DecidableEq, Repr
/-- see `PhysicsType` (common/enums.h:93-107) -/
inductive ICType | Uniform | Gaussian | Sphere | IsentropicVortex deriving DecidableEq, Repr

/-- The fields of the `Physics` object, base/base.h. (base/base.h:58-68) -/
structure Physics where
  /-- `physics_type` -/
  ptype : PhysicsType
  /-- `numerical_flux_type` -/
  ftype : NumericalFluxType
  /-- `IC_type` -/
  ic : ICType
  /-- `IC_data` -/
  icData : List ℝ
  /-- `gamma` -/
  γ : ℝ
  /-- `R`, the gas constant -/
  R : ℝ

/-- `Physics<dim>::call_IC`, base/base.cpp:75-103: a sequence of `if`s without `else`. -/
noncomputable def callIC (dim : ℕ) (ph : Physics) (x : ℕ → ℝ) (t : ℝ) (Uq : ℕ → ℝ) :
    Option (ℕ → ℝ) :=
  match dim with
  | 2 => match ph.ic with
    | .Uniform => setUniform 4 ph.icData Uq
    | .Gaussian => setGaussian 4 ph.icData x Uq
    | .IsentropicVortex => vortex2 ph.icData ph.γ ph.R x t Uq
    | .Sphere => some Uq
  | 3 => match ph.ic with
    | .Sphere => setSphere 5 ph.icData x Uq
    | .Uniform => setUniform 5 ph.icData Uq
    | .IsentropicVortex => vortex3 ph.γ x t Uq
    | .Gaussian => some Uq
  | _ => none

/-- `Physics<dim>::call_exact_solution`, base/base.cpp:105-137; a message is printed when nothing
matches (second component). -/
noncomputable def callExact (dim : ℕ) (ph : Physics) (x : ℕ → ℝ) (t : ℝ) (Uq : ℕ → ℝ) :
    Option ((ℕ → ℝ) × Bool) :=
  match dim with
  | 2 => match ph.ic with
    | .Uniform => (setUniform 4 ph.icData Uq).map (·, false)
    | .Gaussian => (setGaussian 4 ph.icData x Uq).map (·, false)
    | .IsentropicVortex => (vortex2 ph.icData ph.γ ph.R x t Uq).map (·, false)
    | .Sphere => some (Uq, true)
  | 3 => match ph.ic with
    | .Sphere => (setSphere 5 ph.icData x Uq).map (·, false)
    | .Uniform => (setUniform 5 ph.icData Uq).map (·, false)
    | .IsentropicVortex => (vortex3 ph.γ x t Uq).map (·, false)
    | .Gaussian => some (Uq, true)
  | _ => none

/-- `Physics<dim>::get_conv_flux_interior`, base/base.cpp:35-46: the directional fluxes and whether
the error message was printed. -/
noncomputable def getConvFluxInterior (dim : ℕ) (ph : Physics) (U Fdir : ℕ → ℝ) :
    Option ((ℕ → ℝ) × Bool) :=
  match ph.ptype with
  | .Euler => (convFlux dim ph.γ U Fdir).map (·, false)
  | .NavierStokes => some (Fdir, true)

/-- `Physics<dim>::get_maxwavespeed`, base/base.cpp:64-73; `none` also for the missing `return`
(undefined behaviour). -/
noncomputable def getMaxWaveSpeed (dim : ℕ) (ph : Physics) (U : ℕ → ℝ) : Option ℝ :=
  match ph.ptype with
  | .Euler => eulerMaxWaveSpeed dim ph.γ U
  | .NavierStokes => none

/-- `Physics<dim>::get_conv_flux_numerical`, base/base.cpp:48-62 (the third branch is unreachable:
`NumericalFluxType` has two members). -/
noncomputable def getConvFluxNumerical (dim : ℕ) (ph : Physics) (UL UR N Fq0 F0 : ℕ → ℝ) :
    Option (ℕ → ℝ) :=
  match ph.ftype with
  | .LaxFriedrichs => laxFriedrichsWith dim (dim + 2)
      (fun U F => (getConvFluxInterior dim ph U F).map Prod.fst) (getMaxWaveSpeed dim ph)
      UL UR N Fq0 F0
  | .HLLC => hllc dim ph.γ UL UR N F0

end DG
