import Verif.Model.LinAlg
import Verif.Model.Enums

/-!
The physics routines of `src/physics` that are called in every residual, over any type of numbers with the
operations of the program, `sqrt`, `<` and `<=`: operation by operation in the order of the code, so that they can
be run with rounded arithmetic.  (`Model/Physics.lean` is the same code over the reals with its partial
operations checked; `Props/Rounding.lean` compares the two.)

Simplifications: the literal `0.5` is written `1 / 2` (exact in binary arithmetic); every operation is
rounded by itself (no fused multiply-add, no reassociation).
-/
namespace DG

/-- `sqrt` (physics/euler/functions.cpp 37, 39, 206-235) -/
class HasSqrt (K : Type) where
  sqrt : K → K

/-- `exp`, `pow(double, double)`, `pow(double, int)` and `M_PI` of the C library (physics/euler/functions.cpp 113-134, 164-179) -/
class HasLibm (K : Type) where
  exp : K → K
  pow : K → K → K
  powi : K → ℕ → K
  pi : K

namespace Fl

variable {K : Type} [Zero K] [One K] [Add K] [Sub K] [Mul K] [Neg K] [Div K] [NatCast K]

/-- `Math::dot<N>`, linear_algebra.cpp 3-34: unrolled for N = 2, 3, 4, 5. -/
def dot (n : ℕ) (a b : ℕ → K) : K :=
  match n with
  | 2 => dot2 a b
  | 3 => dot3 a b
  | 4 => dot4 a b
  | 5 => dot5 a b
  | n => dotN n a b

/-- `EulerFcnType::get_pressure<dim>`, euler/functions.cpp 10-23. -/
def pressure (dim : ℕ) (γ : K) (U : ℕ → K) : K :=
  let mom := fun i => U (1 + i)
  let rKE := dot dim mom mom / U 0
  (γ - 1) * (U (dim + 1) - 1 / 2 * rKE)

/-- `EulerFcnType::conv_flux_interior<2>`, euler/functions.cpp 43-62. -/
def convFlux2 (γ : K) (U Fdir : ℕ → K) : ℕ → K :=
  let r1 := 1 / U 0
  let ru := U 1
  let rv := U 2
  let rE := U 3
  let P := pressure 2 γ U
  fun k => match k with
    | 0 => ru
    | 1 => ru * ru * r1 + P
    | 2 => ru * rv * r1
    | 3 => (rE + P) * ru * r1
    | 4 => rv
    | 5 => ru * rv * r1
    | 6 => rv * rv * r1 + P
    | 7 => (rE + P) * rv * r1
    | k => Fdir k

/-- `EulerFcnType::conv_flux_interior<3>`, euler/functions.cpp 64-91. -/
def convFlux3 (γ : K) (U Fdir : ℕ → K) : ℕ → K :=
  let r1 := 1 / U 0
  let ru := U 1
  let rv := U 2
  let rw := U 3
  let rE := U 4
  let P := pressure 3 γ U
  fun k => match k with
    | 0 => ru
    | 1 => ru * ru * r1 + P
    | 2 => ru * rv * r1
    | 3 => ru * rw * r1
    | 4 => (rE + P) * ru * r1
    | 5 => rv
    | 6 => rv * ru * r1
    | 7 => rv * rv * r1 + P
    | 8 => rv * rw * r1
    | 9 => (rE + P) * rv * r1
    | 10 => rw
    | 11 => rw * ru * r1
    | 12 => rw * rv * r1
    | 13 => rw * rw * r1 + P
    | 14 => (rE + P) * rw * r1
    | k => Fdir k

/-- The template specialisation selected by `dim` (only 2 and 3 exist). (physics/euler/functions.cpp 44-90) -/
def convFlux (dim : ℕ) (γ : K) (U Fdir : ℕ → K) : ℕ → K :=
  match dim with
  | 2 => convFlux2 γ U Fdir
  | 3 => convFlux3 γ U Fdir
  | _ => Fdir

variable [HasSqrt K]

/-- `EulerFcnType::get_maxwavespeed<dim>`, euler/functions.cpp 25-40. -/
def maxWaveSpeed (dim : ℕ) (γ : K) (U : ℕ → K) : K :=
  let mom := fun i => U (1 + i)
  let rho1 := 1 / U 0
  let sqrtrKE := HasSqrt.sqrt (dot dim mom mom) * rho1
  sqrtrKE + HasSqrt.sqrt (γ * pressure dim γ U * rho1)

variable [LT K] [DecidableLT K] [LE K] [DecidableLE K]

/-- `BaseConvNumFluxType::compute_flux_laxfriedrichs`, base/functions.cpp 33-89, for the Euler equations;
`Fq0` is the uninitialised worker array, `F0` the output array on entry. -/
def laxFriedrichs (dim : ℕ) (γ : K) (UL UR N Fq0 F0 : ℕ → K) : ℕ → K :=
  let ns := dim + 2
  let n_mag := HasSqrt.sqrt (loopSum dim fun i => N i * N i)
  let n_hat := fun i => N i / n_mag
  let Fq := convFlux dim γ UL Fq0
  let FqL := fun s => loopSum dim fun d => Fq (s + d * ns) * n_hat d
  let Fq := convFlux dim γ UR Fq
  let FqR := fun s => loopSum dim fun d => Fq (s + d * ns) * n_hat d
  let dU := fun s => UR s - UL s
  let a := maxWaveSpeed dim γ UL
  let aR := maxWaveSpeed dim γ UR
  let a := if a < aR then aR else a
  fun s => if s < ns then n_mag * (1 / 2 * (FqL s + FqR s) - 1 / 2 * a * dU s) else F0 s

/-- `rtype q = 1.0; if (pStar / P > 1.) q = sqrt(1. + (gam+1.)/(2.*gam) * (pStar/P-1.));`,
euler/functions.cpp 230-233 (2D) and 333-336 (3D). -/
def hllcQ (γ pStar P : K) : K :=
  if 1 < pStar / P then HasSqrt.sqrt (1 + (γ + 1) / (2 * γ) * (pStar / P - 1)) else 1

/-- `fmax(0., x)` (physics/euler/functions.cpp 229, 333) -/
def fmax0 (x : K) : K := if 0 < x then x else 0

/-- `F[0] = ..; F[1+i] = .. (i < dim); F[dim+1] = ..` (physics/euler/functions.cpp 241-283 and 345-388) -/
def writeFlux (dim : ℕ) (mass : K) (mom : ℕ → K) (energy : K) (F0 : ℕ → K) : ℕ → K := fun s =>
  if s = 0 then mass else if s < dim + 1 then mom (s - 1) else if s = dim + 1 then energy else F0 s

/-- What `compute_flux_hllc` has computed before it distinguishes the cases. (physics/euler/functions.cpp 197-239 and 301-343) -/
structure Waves (K : Type) where
  djac : K
  n : ℕ → K
  unL : K
  PL : K
  unR : K
  PR : K
  sL : K
  sR : K
  sStar : K

/-- `compute_flux_hllc`, euler/functions.cpp 196-238 (dim = 2) and 298-341 (dim = 3): normals, left and right
state, wave speeds. -/
def hllcWaves (dim : ℕ) (γ : K) (UL UR N : ℕ → K) : Waves K :=
  let djac := HasSqrt.sqrt (dot dim N N)
  let djac1 := 1 / djac
  let n := fun i => N i * djac1
  -- left state
  let rhoL := UL 0
  let rhoL1 := 1 / rhoL
  let unL := dot dim (fun i => UL (1 + i)) n * rhoL1
  let PL := pressure dim γ UL
  let aL := HasSqrt.sqrt (γ * PL * rhoL1)
  -- right state
  let rhoR := UR 0
  let rhoR1 := 1 / rhoR
  let unR := dot dim (fun i => UR (1 + i)) n * rhoR1
  let PR := pressure dim γ UR
  let aR := HasSqrt.sqrt (γ * PR * rhoR1)
  -- averages
  let rAvg := 1 / 2 * (rhoL + rhoR)
  let aAvg := 1 / 2 * (aL + aR)
  let pStar := fmax0 (1 / 2 * (PL + PR - (unR - unL) * rAvg * aAvg))
  let qL := hllcQ γ pStar PL
  let qR := hllcQ γ pStar PR
  let sL := unL - aL * qL
  let sR := unR + aR * qR
  let sStar := (PR - PL + rhoL * unL * (sL - unL) - rhoR * unR * (sR - unR)) /
    (rhoL * (sL - unL) - rhoR * (sR - unR))
  ⟨djac, n, unL, PL, unR, PR, sL, sR, sStar⟩

/-- the flux of the left state, euler/functions.cpp 240-246 -/
def hllcL (dim : ℕ) (w : Waves K) (UL F0 : ℕ → K) : ℕ → K :=
  writeFlux dim (w.djac * UL 0 * w.unL) (fun i => w.djac * (UL (1 + i) * w.unL + w.PL * w.n i))
    (w.djac * ((UL (dim + 1) + w.PL) * w.unL)) F0

/-- the flux of the right state, euler/functions.cpp 247-253 -/
def hllcR (dim : ℕ) (w : Waves K) (UR F0 : ℕ → K) : ℕ → K :=
  writeFlux dim (w.djac * UR 0 * w.unR) (fun i => w.djac * (UR (1 + i) * w.unR + w.PR * w.n i))
    (w.djac * (UR (dim + 1) + w.PR) * w.unR) F0

/-- the flux between a wave and the contact, euler/functions.cpp 254-283: the two cases are the same text up
to the letters -/
def hllcStar (dim : ℕ) (djac sStar s un P : K) (n U F0 : ℕ → K) : ℕ → K :=
  let c := (s - un) / (s - sStar)
  let factor1 := sStar - un
  let factor2 := sStar + P / (U 0 * (s - un))
  writeFlux dim (djac * (U 0 * un + U 0 * s * (c - 1)))
    (fun i => djac * (U (1 + i) * un + P * n i + s * (U (1 + i) * (c - 1) + U 0 * c * factor1 * n i)))
    (djac * ((U (dim + 1) + P) * un + s * (U (dim + 1) * (c - 1) + U 0 * c * factor1 * factor2))) F0

/-- `compute_flux_hllc`, euler/functions.cpp 196-296 (dim = 2) and 298-399 (dim = 3).  `none`: `assert(false)`. -/
def hllc (dim : ℕ) (γ : K) (UL UR N F0 : ℕ → K) : Option (ℕ → K) :=
  let w := hllcWaves dim γ UL UR N
  if 0 ≤ w.sL then some (hllcL dim w UL F0)
  else if w.sR ≤ 0 then some (hllcR dim w UR F0)
  else if w.sL < 0 ∧ 0 ≤ w.sStar then some (hllcStar dim w.djac w.sStar w.sL w.unL w.PL w.n UL F0)
  else if w.sStar < 0 ∧ 0 < w.sR then some (hllcStar dim w.djac w.sStar w.sR w.unR w.PR w.n UR F0)
  else none

/-- `EulerFcnType::set_state_isentropic_vortex` in 2D, euler/functions.cpp 94-145.  `data` is `IC_data`, `none` a failed
assertion (`Rg == 1.0`). -/
def vortex2 [HasLibm K] [DecidableEq K] (data : ℕ → K) (γ Rg : K) (x : ℕ → K) (t : K) (Uq : ℕ → K) : Option (ℕ → K) :=
  if Rg = 1 then
    let Tb := data 3 / (data 0 * Rg)
    let s := data 3 / HasLibm.pow (data 0) γ
    let xr := x 0 - data 1 * t
    let yr := x 1 - data 2 * t
    let r := HasSqrt.sqrt (HasLibm.powi xr 2 + HasLibm.powi yr 2)
    let dU := data 4 / (2 * HasLibm.pi) * HasLibm.exp (1 / 2 * (1 - HasLibm.powi r 2))
    let du := dU * (-1) * yr
    let dv := dU * xr
    let dT := -1 * (γ - 1) * HasLibm.powi (data 4) 2 / (8 * γ * HasLibm.powi HasLibm.pi 2) * HasLibm.exp (1 - HasLibm.powi r 2)
    let u := data 1 + du
    let v := data 2 + dv
    let T := Tb + dT
    let rho := HasLibm.pow (T / s) (1 / (γ - 1))
    let rhou := rho * u
    let rhov := rho * v
    let rhoE := rho * Rg / (γ - 1) * T + 1 / 2 * (rhou * rhou + rhov * rhov) / rho
    some fun k => match k with
      | 0 => rho
      | 1 => rhou
      | 2 => rhov
      | 3 => rhoE
      | k => Uq k
  else none

/-- `EulerFcnType::set_state_isentropic_vortex` in 3D, euler/functions.cpp 147-191.  The time is not used. -/
def vortex3 [HasLibm K] (γ : K) (x : ℕ → K) (_t : K) (Uq : ℕ → K) : ℕ → K :=
  let radius := 1 / 10
  let beta := 1 * 5 * HasSqrt.sqrt 2 / (4 * HasLibm.pi) * HasLibm.exp (1 / 2)
  let u0 : K := 1 * 1
  let x1 := x 0 - 1 / 2
  let y1 := x 2 - 1 / 2
  let f := -(1 / 2) / (1 * 1) * (x1 * x1 + y1 * y1) / (radius * radius)
  let Omega := beta * HasLibm.exp f
  let du := -y1 / radius * Omega
  let dv := x1 / radius * Omega
  let dT := -(γ - 1) / 2 * Omega * Omega
  let p := 1 / γ * HasLibm.pow (1 + dT) (γ / (γ - 1))
  let rho := HasLibm.pow (1 + dT) (1 / (γ - 1))
  let mom : ℕ → K := fun i => match i with
    | 0 => rho * (u0 + du)
    | 1 => 0
    | _ => rho * dv
  let rKE := dot 3 mom mom / rho
  fun k => match k with
    | 0 => rho
    | 1 => mom 0
    | 2 => mom 1
    | 3 => mom 2
    | 4 => p / (γ - 1) + 1 / 2 * rKE
    | k => Uq k

end Fl
/-- `Physics::get_conv_flux_numerical`, physics/base/base.cpp 49-62: the routine for the flux `f`; `junk` is what is in the work
and output arrays on entry (the HLLC routine leaves its output unset when none of its branches is taken). -/
def machineNumFlux {K : Type} [Zero K] [One K] [Add K] [Sub K] [Mul K] [Neg K] [Div K] [NatCast K] [HasSqrt K]
    [LT K] [DecidableLT K] [LE K] [DecidableLE K] (f : NumericalFluxType) (dim : ℕ) (γ : K) (junk : ℕ → K)
    (UL UR N : ℕ → K) : ℕ → K :=
  match f with
  | .LaxFriedrichs => Fl.laxFriedrichs dim γ UL UR N junk junk
  | .HLLC => (Fl.hllc dim γ UL UR N junk).getD junk

end DG
