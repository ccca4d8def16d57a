import Verif.Model.Main
import Verif.Model.FluxOps

/-!
The solver executable, `src/exec/main.cpp`, in the arithmetic of a computer: the functions of `Model/Main` (and of
`Model/Enums` and `Model/Flux` which they call) over any type of numbers with the operations of the program, operation by
operation, down to the quotient that decides how many steps are taken.

Simplifications: as in `Model/Main`; the functions `sin` and `tanh` are not among the operations, so the initial conditions
that call them (Gaussian, Sphere) have unspecified values; the contents of uninitialised work arrays are the same in every call.
-/
namespace DG.Fl

/-- The keys of the input file read by the solver executable, with numbers of type `K` (see `DG.Deck` and `DG.SolverInput` for
the lines in /repo/src). (exec/main.cpp 42, 57-73, solver/base.cpp 26-57, mesh/mesh.cpp 31-47) -/
structure Deck (K : Type) where
  /-- `Physics.dim`, exec/main.cpp 42 -/
  dim : Option ℕ
  /-- `Numerics.order`, numerics/numerics_data.cpp 233 -/
  order : Option ℕ
  /-- `Numerics.basis`, numerics_data.cpp 234 -/
  basis : Option String
  /-- `Numerics.quadrature`, numerics_data.cpp 286-300 -/
  quad : Option String
  /-- `Mesh.file`, mesh.cpp 34 -/
  meshFile : Option String
  /-- number of partitions, mesh.cpp 38-43 -/
  parts : MeshInput
  /-- `Boundaries.names`, mesh.cpp 46-48 -/
  boundaries : List String
  /-- `InitialCondition.name`, solver/base.cpp 26 -/
  icName : Option String
  /-- `Physics.name`, solver/base.cpp 35 -/
  physName : Option String
  /-- `Physics.convective_flux_fcn`, solver/base.cpp 38-39 -/
  fluxName : Option String
  /-- `Physics.gamma`, physics/base/base.cpp 24-32 -/
  gamma : Option K
  /-- `Physics.GasConstant`, physics/base/base.cpp 24-32 -/
  gasConstant : Option K
  /-- `Stepper.type`, solver/base.cpp 46 -/
  stepperName : Option String
  /-- `Stepper.timestep`, solver/base.cpp 54 -/
  timestep : Option K
  /-- `Stepper.end`, solver/base.cpp 56 -/
  tend : Option K
  /-- `InitialCondition.data`, exec/main.cpp 73 -/
  icData : Option (List K)

/-- The fields of the `Physics` object, physics/base/base.h. (physics/base/base.h 58-68) -/
structure Physics (K : Type) where
  /-- `physics_type` -/
  ptype : PhysicsType
  /-- `numerical_flux_type` -/
  ftype : NumericalFluxType
  /-- `IC_type` -/
  ic : ICType
  /-- `IC_data` -/
  icData : List K
  /-- `gamma` -/
  γ : K
  /-- `R`, the gas constant -/
  R : K

/-- What the solver constructor sets up, solver/base.cpp 20-67. -/
structure SolverSetup (K : Type) where
  /-- `physics` -/
  physics : Physics K
  /-- the stepper object -/
  stepper : StepperType
  /-- `dt` -/
  dt : K
  /-- `tfinal` -/
  tfinal : K

/-- Values that are unset or unspecified by the program: contents of work arrays, and the members of `Physics` that are not set
for other physics than Euler. (physics/base/base.h 67-68) -/
structure Unset (K : Type) where
  /-- interior flux -/
  vol : ℕ → K
  /-- initial condition -/
  ic : ℕ → K
  /-- numerical flux -/
  num : ℕ → K
  /-- `gamma` -/
  γ : K
  /-- `R` -/
  R : K

/-- `Solver::Solver`, solver/base.cpp 21-67, with `Physics::Physics` (physics/base/base.cpp 17-22), `set_physical_params` (24-32)
and `StepperFactory::create_stepper` (stepper.h 75-89); `none` = an exception (missing key or unknown name). -/
def makeSolver {K : Type} [DecLit K] (deck : Deck K) (icData : List K) (γ0 R0 : K) : Option (SolverSetup K) := do
  let icName ← deck.icName
  let phys ← deck.physName
  let ptype ← parseEnum physicsTypeTable PhysicsType.members phys
  let ftype ← parseEnum numericalFluxTable NumericalFluxType.members (deck.fluxName.getD "LaxFriedrichs")
  let ic ← parseEnum icTable ICType.members icName
  let γ := if ptype = .Euler then deck.gamma.getD (DecLit.ofDec 14 1) else γ0
  let R := if ptype = .Euler then deck.gasConstant.getD (DecLit.ofDec 28705 2) else R0
  let stepper ← parseEnum stepperTypeTable StepperType.members (deck.stepperName.getD "FE")
  let dt ← deck.timestep
  let tfinal ← deck.tend
  return ⟨⟨ptype, ftype, ic, icData, γ, R⟩, stepper, dt, tfinal⟩

section
variable {K : Type} [Zero K] [One K] [Add K] [Sub K] [Mul K] [Neg K] [Div K] [NatCast K] [HasSqrt K] [HasLibm K] [DecLit K]
  [LT K] [DecidableLT K] [LE K] [DecidableLE K] [DecidableEq K]

/-- `set_state_uniform_2D/3D`, physics/base/base.cpp 140-160: `IC_data[is]` for every `is < extent`. -/
def setUniform (ns : ℕ) (data : List K) (Uq : ℕ → K) : Option (ℕ → K) :=
  if ns ≤ data.length then some fun k => if k < ns then data.getD k 0 else Uq k else none

/-- `Physics<dim>::call_IC`, physics/base/base.cpp 75-103. -/
def callIC (dim : ℕ) (ph : Physics K) (x : ℕ → K) (t : K) (Uq : ℕ → K) : Option (ℕ → K) :=
  match dim with
  | 2 => match ph.ic with
    | .Uniform => setUniform 4 ph.icData Uq
    | .IsentropicVortex => if 5 ≤ ph.icData.length then vortex2 (fun i => ph.icData.getD i 0) ph.γ ph.R x t Uq else none
    | .Gaussian => none
    | .Sphere => some Uq
  | 3 => match ph.ic with
    | .Sphere => none
    | .Uniform => setUniform 5 ph.icData Uq
    | .IsentropicVortex => some (vortex3 ph.γ x t Uq)
    | .Gaussian => some Uq
  | _ => none

/-- `physics.get_conv_flux_interior(Uq, Fdir)` as called in `get_element_residuals`, solver/base.cpp 415-468
(physics/base/base.cpp 35-46); for other physics than Euler the output array is not written. -/
def solverVolFlux (dim : ℕ) (ph : Physics K) (junk : ℕ → K) (U : ℕ → K) : ℕ → K :=
  match ph.ptype with
  | .Euler => convFlux dim ph.γ U junk
  | .NavierStokes => junk

/-- `physics.get_conv_flux_numerical(UqL, UqR, normals, Fq, F)` as called in `get_interior_face_residuals`, solver/base.cpp
470-561; for other physics than Euler the values are unspecified (`get_maxwavespeed` does not return). -/
def solverNumFlux (dim : ℕ) (ph : Physics K) (junk : ℕ → K) : (ℕ → K) → (ℕ → K) → (ℕ → K) → ℕ → K :=
  match ph.ptype with
  | .Euler => machineNumFlux ph.ftype dim ph.γ junk
  | .NavierStokes => fun _ _ _ => junk

/-- `physics.call_IC(physics, x, time, Uq)` as called in `init_state_from_fcn`, solver/base.cpp 114-226, at time 0. -/
def solverIC (dim : ℕ) (ph : Physics K) (junk : ℕ → K) (x : ℕ → K) : ℕ → K :=
  (callIC dim ph x 0 junk).getD junk

/-- What every rank has read and derived from the input files alone. (exec/main.cpp 50-80) -/
structure Job (K : Type) where
  /-- `numerics_params` -/
  num : NumParams
  /-- the mesh file, exec/main.cpp 59 -/
  mesh : GMesh K
  /-- `mesh.dim` -/
  fileDim : ℕ
  /-- `mesh.num_partitions` -/
  nparts : ℕ
  /-- the solver's configuration -/
  sol : SolverSetup K
  /-- reference data and fluxes -/
  disc : Disc K
  /-- number of time steps -/
  nsteps : ℕ

/-- `const unsigned num_iterations = (int)(tfinal / dt)`, solver/base.cpp 382: the quotient as the computer calculates it,
converted to an integer (`toInt`, `none` = undefined: out of range or not a number) and then to `unsigned`, modulo `2^32`. -/
def numSteps (toInt : K → Option ℤ) (sol : SolverSetup K) : Option ℕ :=
  (toInt (sol.tfinal / sol.dt)).map fun z => (z % 2 ^ 32).toNat

/-- The parts of `run_solver<dim>`, exec/main.cpp 50-118, and `Mesh::Mesh`, mesh.cpp 28-62, that depend on the input files only
(`DG.readJob`).  `fs name groups`: the contents of the mesh file with that name and of the datasets of those boundary
groups. -/
def readJob (toInt : K → Option ℤ) (deck : Deck K) (fs : String → List String → Option (MeshFile K)) (un : Unset K)
    (dim nranks : ℕ) : Option (Job K) := do
  -- main.cpp 52-55
  let gorder := 1
  let num ← makeNumParams nBasisMax deck.order deck.basis deck.quad gorder
  -- main.cpp 57-61, mesh.cpp 31-57
  let name ← deck.meshFile
  let nparts ← numPartitions deck.parts nranks
  let mf ← fs name deck.boundaries
  let rd ← readMesh mf
  -- main.cpp 67, solver/base.cpp 20-67; main.cpp 73-74
  let data ← deck.icData
  let sol ← makeSolver deck data un.γ un.R
  if data.length ≤ initParamsMax then
    let sh ← basisShape num.basis
    if shapeDim sh.1 = dim then
      let disc ← buildDisc num.basis num.gbasis num.order gorder (dim + 2)
        (solverVolFlux dim sol.physics un.vol) (solverNumFlux dim sol.physics un.num)
      let nsteps ← numSteps toInt sol
      some ⟨num, rd.mesh, mf.dim, nparts, sol, disc, nsteps⟩
    else none
  else none

/-- One rank before the time loop. (exec/main.cpp 57-99) -/
structure RankReady (K : Type) where
  /-- its part of the mesh -/
  rm : RankMesh K
  /-- precomputed helpers -/
  geom : Geom K
  /-- initial coefficients -/
  init : ℕ → ℕ → ℕ → K

/-- The parts of `run_solver<dim>` before `solve`, exec/main.cpp 59-103, that depend on the rank (`DG.readyRank`): the
partition of the mesh with its debug print (mesh.cpp 206-553), `precompute_matrix_helpers` and `init_state_from_fcn`. -/
def readyRank (job : Job K) (un : Unset K) (dim nranks : ℕ) (env : RankEnv K) (r : ℕ) : Option (RankReady K) := do
  let part := elemPartition job.nparts job.mesh.numElems env.metis
  let rm ← partition job.mesh job.nparts nranks part env.enum r
  let _ ← checkView rm
  let geom ← buildGeom job.num.basis job.num.gbasis job.num.order 1 r rm env.scr env.MM0
  let u ← initState job.num.basis job.num.gbasis job.num.order 1 (dim + 2) rm geom.iMM
    (solverIC dim job.sol.physics un.ic) env.rhs0 env.U0
  some ⟨rm, geom, u⟩

/-- `solver.solve()`, exec/main.cpp 106, as the program of all ranks; `sched`: orders of the parallel loops. -/
def jobProg (job : Job K) (ranks : ℕ → RankReady K) (nranks : ℕ)
    (sched : ℕ → ℕ → List (FluxWrite K) → List (FluxWrite K)) :
    Proto.Prog (FaceArr (ℕ → ℕ → K) × Option (RankState K)) (List (ℕ → ℕ → K)) :=
  solverProg job.disc (fun r => (ranks r).geom) (fun r => (ranks r).rm) nranks job.sol.dt
    (stepperOf job.sol.stepper) sched job.nsteps

/-- The configurations of the ranks inside `solver.solve()`. (exec/main.cpp 106) -/
abbrev LoopConf (K : Type) := Proto.Conf (FaceArr (ℕ → ℕ → K) × Option (RankState K)) (List (ℕ → ℕ → K))

/-- The ranks on entering `solver.solve()`, exec/main.cpp 106. -/
def jobInit (job : Job K) (ranks : ℕ → RankReady K) : LoopConf K :=
  Proto.init (solverStart job.disc (fun r => (ranks r).rm) (stepperOf job.sol.stepper) fun r => (ranks r).init)

/-- The file `data.h5`, exec/main.cpp 108-113, written by all ranks after the loop; `ord`: order of the writes. -/
def jobFile (job : Job K) (ranks : ℕ → RankReady K) (dim nranks : ℕ) (ord : ℕ → List ℕ) (c : LoopConf K) :
    Option (SolFile K) := do
  let outs ← (List.range nranks).mapM fun r =>
    (c.proc r).st.2.map fun s => rankOut job.mesh job.fileDim nranks job.disc.nb (dim + 2) s.time true
      (ranks r).rm s.Uc
  writeFile true outs ord

end

/-- All ranks have left the time loop, solver/base.cpp 387-393. -/
def LoopDone {K : Type} (job : Job K) (nranks : ℕ) (c : LoopConf K) : Prop :=
  ∀ r < nranks, (c.proc r).round = stagesOf (stepperOf job.sol.stepper) * job.nsteps

/-- The dimensions for which `main` runs the solver, exec/main.cpp 42-47. -/
def mainDim {K : Type} (deck : Deck K) : Option (Option ℕ) :=
  deck.dim.map fun d => if d = 2 then some 2 else if d = 3 then some 3 else none

end DG.Fl
