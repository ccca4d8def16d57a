import Verif.Spec.Euler
import Verif.Spec.QuadDG
import Verif.Spec.HexDG
import Verif.Model.Physics

/-!
Specification: the textbook discontinuous Galerkin scheme for the compressible Euler equations: the
fluxes, the initial states and what it means that a run stays physically admissible.
-/
namespace DG
open Finset

/-- largest signal speed of a state in any direction: `|v| + c` -/
noncomputable def maxSpeed (dim : ℕ) (γ : ℝ) (U : ℕ → ℝ) : ℝ :=
  Real.sqrt (inner' dim (vel U) (vel U)) + soundSpeed dim γ U

/-- The (local) Lax–Friedrichs flux through a surface with normal `N` (length = area). -/
noncomputable def rusanovFlux (dim : ℕ) (γ : ℝ) (UL UR N : ℕ → ℝ) (s : ℕ) : ℝ :=
  (eulerFlux dim γ UL N s + eulerFlux dim γ UR N s) / 2 -
    Real.sqrt (inner' dim N N) * max (maxSpeed dim γ UL) (maxSpeed dim γ UR) / 2 * (UR s - UL s)

/-- The numerical flux of a name, through a surface with normal `N` (length = area). -/
noncomputable def eulerNumFlux (f : NumericalFluxType) (dim : ℕ) (γ : ℝ) (UL UR N : ℕ → ℝ) (s : ℕ) : ℝ :=
  match f with
  | .LaxFriedrichs => rusanovFlux dim γ UL UR N s
  | .HLLC => Real.sqrt (inner' dim N N) * hllcFlux dim γ UL UR (unit dim N) s

/-- The flux vectors of all variables, direction by direction: entry `j * (dim + 2) + s` is the flux of
variable `s` in direction `j`. -/
noncomputable def eulerDirFlux (dim : ℕ) (γ : ℝ) (U : ℕ → ℝ) (k : ℕ) : ℝ :=
  eulerFlux dim γ U (axis (k / (dim + 2))) (k % (dim + 2))

/-- the scheme for the Euler equations on quadrilaterals -/
noncomputable def quadEuler (t : Fam) (p : ℕ) (f : NumericalFluxType) (γ : ℝ) : Disc ℝ :=
  quadDisc t p 4 (eulerDirFlux 2 γ) (eulerNumFlux f 2 γ)

/-- the scheme for the Euler equations on hexahedra -/
noncomputable def hexEuler (t : Fam) (p : ℕ) (f : NumericalFluxType) (γ : ℝ) : Disc ℝ :=
  hexDisc t p 5 (eulerDirFlux 3 γ) (eulerNumFlux f 3 γ)

/-- Isentropic vortex centred at the origin in a background of density `ρ`, velocity `(u, v)` and pressure
`P`, of strength `K` (Shu's vortex). -/
noncomputable def vortexState (γ ρ u v P K x y : ℝ) (s : ℕ) : ℝ :=
  let f := K / (2 * Real.pi) * Real.exp ((1 - (x ^ 2 + y ^ 2)) / 2)
  let T := P / ρ - (γ - 1) / (2 * γ) * f ^ 2
  let r := (T / (P / ρ ^ γ)) ^ (1 / (γ - 1))
  let a := u - f * y
  let b := v + f * x
  if s = 0 then r else if s = 1 then r * a else if s = 2 then r * b
  else r * T / (γ - 1) + r * (a ^ 2 + b ^ 2) / 2

/-- The isentropic vortex of the three-dimensional program: in the `x`-`z` plane about the line `x = z = 1/2`, radius `1/10`, in a
stream of density 1, velocity `(1, 0, 0)` and speed of sound 1, strength `5√2/(4π)`. -/
noncomputable def vortexState3 (γ x z : ℝ) (s : ℕ) : ℝ :=
  let X := 10 * (x - 1 / 2)
  let Z := 10 * (z - 1 / 2)
  let f := 5 * Real.sqrt 2 / (4 * Real.pi) * Real.exp ((1 - (X ^ 2 + Z ^ 2)) / 2)
  let T := 1 - (γ - 1) / 2 * f ^ 2
  let r := T ^ (1 / (γ - 1))
  let a := 1 - f * Z
  let b := f * X
  if s = 0 then r else if s = 1 then r * a else if s = 2 then 0 else if s = 3 then r * b
  else r * T / (γ * (γ - 1)) + r * (a ^ 2 + b ^ 2) / 2

/-- The initial conditions of the input deck that are physical states, as functions of the point. -/
inductive StartState (ph : Physics) : ℕ → ((ℕ → ℝ) → ℕ → ℝ) → Prop
  /-- a uniform state: the numbers of the deck -/
  | uniform (dim : ℕ) (hd : dim = 2 ∨ dim = 3) (h : ph.ic = .Uniform)
      (hlen : dim + 2 ≤ ph.icData.length) : StartState ph dim fun _ s => ph.icData.getD s 0
  /-- the vortex in two dimensions; gas constant 1, not so strong that the temperature becomes negative -/
  | vortex (h : ph.ic = .IsentropicVortex) (hR : ph.R = 1) (ρ u v P K : ℝ) (rest : List ℝ)
      (hdata : ph.icData = ρ :: u :: v :: P :: K :: rest) (hρ : 0 < ρ) (hP : 0 < P)
      (hK : (ph.γ - 1) * K ^ 2 * Real.exp 1 < 8 * ph.γ * Real.pi ^ 2 * (P / ρ)) :
      StartState ph 2 fun x => vortexState ph.γ ρ u v P K (x 0) (x 1)
  /-- the vortex in three dimensions, which has no parameters but the heat ratio; this must not be so large that the temperature
  becomes negative -/
  | vortex3 (h : ph.ic = .IsentropicVortex) (hγ : 25 * (ph.γ - 1) * Real.exp 1 < 16 * Real.pi ^ 2) :
      StartState ph 3 fun x => vortexState3 ph.γ (x 0) (x 2)

/-- All states the scheme evaluates for the coefficients `U` are admissible: at the volume points of all
elements and at the points of both sides of all faces. -/
structure StatesAdmissible {α : Type} (γ : ℝ) (d : Disc ℝ) (m : GMesh α) (U : Coeffs ℝ) : Prop where
  vol : ∀ e < m.numElems, ∀ q < d.nq, Admissible d.dim γ (volState d U e q)
  left : ∀ f ∈ m.faces, ∀ i < d.nqf, Admissible d.dim γ (traceState d U f.elemL f.faceL i)
  right : ∀ f ∈ m.faces, ∀ i < d.nqf, Admissible d.dim γ (traceState d U f.elemR f.faceR i)

/-- `P` holds of all states at which one step of the method from `U` evaluates the right-hand side. -/
def StagesHold (st : Stepper) (dt : ℝ) (rhs : Coeffs ℝ → Coeffs ℝ) (P : Coeffs ℝ → Prop) (U : Coeffs ℝ) : Prop :=
  match st with
  | .FE => P U
  | .RK4 =>
    let k1 := rhs U
    let U2 : Coeffs ℝ := fun e b s => U e b s + dt / 2 * k1 e b s
    let U3 : Coeffs ℝ := fun e b s => U e b s + dt / 2 * rhs U2 e b s
    let U4 : Coeffs ℝ := fun e b s => U e b s + dt * rhs U3 e b s
    P U ∧ P U2 ∧ P U3 ∧ P U4

/-- The run of `n` steps from `U` evaluates the fluxes at admissible states only. -/
def RunAdmissible {α : Type} (γ : ℝ) (d : Disc ℝ) (m : GMesh α) (G : Geom ℝ) (st : Stepper) (dt : ℝ)
    (U : Coeffs ℝ) (n : ℕ) : Prop :=
  ∀ i < n, StagesHold st dt (globalRHS d m G) (StatesAdmissible γ d m)
    ((stepOf st dt (globalRHS d m G))^[i] U)

end DG
