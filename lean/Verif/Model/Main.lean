import Verif.Model.Enums
import Verif.Model.ReadMesh
import Verif.Model.Setup
import Verif.Model.Flux
import Verif.Model.IO

/-!
Model of the solver executable, `src/exec/main.cpp`: the sequence of the parts modelled in the other
modules, from the input file to the solution file `data.h5`.

Not modelled: command line (`Utils::exist_option`, see `Model/Utils`), timers, console output other than
the debug print that reads the face table, the finalisation of MPI and Kokkos.
-/
namespace DG

/-- The keys of the input file read by the solver executable (`none` = key absent).
(exec/main.cpp 42, 57-73, solver/base.cpp 26-57, mesh/mesh.cpp 31-47) -/
structure Deck where
  /-- `Physics.dim`, main.cpp 42 -/
  dim : Option ℕ
  /-- `Numerics.order`, numerics_data.cpp 233 -/
  order : Option ℕ
  /-- `Numerics.basis`, numerics_data.cpp 234 -/
  basis : Option String
  /-- `Numerics.quadrature`, numerics_data.cpp 286-300 -/
  quad : Option String
  /-- `Mesh.file`, mesh.cpp 34 -/
  meshFile : Option String
  /-- number of partitions, mesh.cpp 38-43 -/
  parts : MeshInput
  /-- `Boundaries.names`, mesh.cpp 46-48 -/
  boundaries : List String
  /-- keys of the solver constructor -/
  solver : SolverInput
  /-- `InitialCondition.data`, main.cpp 73 -/
  icData : Option (List ℝ)

/-- Values that are unset or unspecified by the program: what a flux or initial-condition routine leaves
behind where it is undefined, and the members of `Physics` that are not set for other physics than Euler.
(physics/base/base.cpp 25-137, physics/base/base.h 67-68) -/
structure Unset where
  /-- interior flux -/
  vol : (ℕ → ℝ) → ℕ → ℝ
  /-- initial condition -/
  ic : (ℕ → ℝ) → ℕ → ℝ
  /-- numerical flux -/
  num : (ℕ → ℝ) → (ℕ → ℝ) → (ℕ → ℝ) → (ℕ → ℝ) × (ℕ → ℝ)
  /-- `gamma` -/
  γ : ℝ
  /-- `R` -/
  R : ℝ

/-- `N_BASIS_MAX`, common/defines.h 24. -/
def nBasisMax : ℕ := 300

/-- `INIT_EX_PARAMS_MAX`, common/defines.h 21. -/
def initParamsMax : ℕ := 10

/-- The stepper object made for a stepper type, stepper.h 88-104. -/
def stepperOf : StepperType → Stepper
  | .ForwardEuler => .FE
  | .RungeKutta4 => .RK4

/-- What every rank has read and derived from the input files alone. (exec/main.cpp 50-80) -/
structure Job where
  /-- `numerics_params` -/
  num : NumParams
  /-- the mesh file, main.cpp 59 -/
  mesh : GMesh ℝ
  /-- `mesh.dim` -/
  fileDim : ℕ
  /-- `mesh.num_partitions` -/
  nparts : ℕ
  /-- the solver's configuration -/
  sol : SolverSetup
  /-- reference data and fluxes -/
  disc : Disc ℝ
  /-- number of time steps -/
  nsteps : ℕ

/-- The parts of `run_solver<dim>`, main.cpp 50-118, and `Mesh::Mesh`, mesh.cpp 28-62, that depend on the
input files only; every rank executes them for itself with the same result.  `fs name groups`: the
contents of the mesh file with that name and of the datasets of those boundary groups (`none` = cannot be
opened); `steps`: the computation of the number of time steps.  `none` = an exception, a failed assertion
or undefined behaviour; also if the dimension of the basis is not the template argument `dim` (not
modelled). -/
noncomputable def readInputs (deck : Deck) (fs : String → List String → Option (MeshFile ℝ)) (un : Unset)
    (dim nranks : ℕ) (steps : SolverSetup → Option ℕ) : Option Job := do
  -- main.cpp 52-55
  let gorder := 1
  let num ← makeNumParams nBasisMax deck.order deck.basis deck.quad gorder
  -- main.cpp 57-61, mesh.cpp 31-57
  let name ← deck.meshFile
  let nparts ← numPartitions deck.parts nranks
  let mf ← fs name deck.boundaries
  let rd ← readMesh mf
  -- main.cpp 67, solver/base.cpp 20-67; main.cpp 73-74
  let data ← deck.icData
  let sol ← makeSolver deck.solver data un.γ un.R
  if data.length ≤ initParamsMax then
    let sh ← basisShape num.basis
    if shapeDim sh.1 = dim then
      let disc ← buildDisc num.basis num.gbasis num.order gorder (dim + 2)
        (solverVolFlux dim sol.physics un.vol) (solverNumFlux dim sol.physics un.num)
      let nsteps ← steps sol
      some ⟨num, rd.mesh, mf.dim, nparts, sol, disc, nsteps⟩
    else none
  else none

/-- `run_solver<dim>` up to the time loop, with the number of iterations of `Solver::solve`,
solver/base.cpp 382. -/
noncomputable def readJob (deck : Deck) (fs : String → List String → Option (MeshFile ℝ)) (un : Unset)
    (dim nranks : ℕ) : Option Job :=
  readInputs deck fs un dim nranks fun sol => numIterations (sol.tfinal / sol.dt)

/-- What is special to one rank: the enumeration order of its hash tables, what METIS returns to it, and
the contents of its scratch memory. (mesh/mesh.cpp 206-282, 330-382) -/
structure RankEnv (K : Type := ℝ) where
  /-- order of iteration over unordered containers -/
  enum : List ℕ → List ℕ
  /-- `epart` after the call of METIS -/
  metis : List ℕ
  /-- scratch memory of `compute_inv_mass_matrices` -/
  scr : ℕ → ℕ → ℕ → K
  /-- same -/
  MM0 : ℕ → ℕ → ℕ → K
  /-- scratch memory of `init_state_from_fcn` -/
  rhs0 : ℕ → ℕ → ℕ → K
  /-- `Uc` before `init_state_from_fcn` -/
  U0 : ℕ → ℕ → ℕ → K

/-- One rank before the time loop. (exec/main.cpp 57-99) -/
structure RankReady where
  /-- its part of the mesh -/
  rm : RankMesh ℝ
  /-- precomputed helpers -/
  geom : Geom ℝ
  /-- initial coefficients -/
  init : ℕ → ℕ → ℕ → ℝ

/-- The parts of `run_solver<dim>` before `solve`, main.cpp 59-103, that depend on the rank: the partition
of the mesh with its debug print (mesh.cpp 206-553), `precompute_matrix_helpers` and
`init_state_from_fcn`. -/
noncomputable def readyRank (job : Job) (un : Unset) (dim nranks : ℕ) (env : RankEnv) (r : ℕ) : Option RankReady := do
  let part := elemPartition job.nparts job.mesh.numElems env.metis
  let rm ← partition job.mesh job.nparts nranks part env.enum r
  let _ ← checkView rm
  let geom ← buildGeom job.num.basis job.num.gbasis job.num.order 1 r rm env.scr env.MM0
  let u ← initState job.num.basis job.num.gbasis job.num.order 1 (dim + 2) rm geom.iMM
    (solverIC dim job.sol.physics un.ic) env.rhs0 env.U0
  some ⟨rm, geom, u⟩

/-- The configurations of the ranks inside `solver.solve()`. (exec/main.cpp 106) -/
abbrev LoopConf := Proto.Conf (FaceArr (ℕ → ℕ → ℝ) × Option (RankState ℝ)) (List (ℕ → ℕ → ℝ))

/-- `solver.solve()`, main.cpp 106, as the program of all ranks; `sched`: orders of the parallel loops. -/
noncomputable def jobProg (job : Job) (ranks : ℕ → RankReady) (nranks : ℕ)
    (sched : ℕ → ℕ → List (FluxWrite ℝ) → List (FluxWrite ℝ)) :
    Proto.Prog (FaceArr (ℕ → ℕ → ℝ) × Option (RankState ℝ)) (List (ℕ → ℕ → ℝ)) :=
  solverProg job.disc (fun r => (ranks r).geom) (fun r => (ranks r).rm) nranks job.sol.dt
    (stepperOf job.sol.stepper) sched job.nsteps

/-- The ranks on entering `solver.solve()`. (exec/main.cpp 106) -/
noncomputable def jobInit (job : Job) (ranks : ℕ → RankReady) : LoopConf :=
  Proto.init (solverStart job.disc (fun r => (ranks r).rm) (stepperOf job.sol.stepper) fun r => (ranks r).init)

/-- All ranks have left the time loop. (solver/base.cpp 387-393) -/
def LoopDone (job : Job) (nranks : ℕ) (c : LoopConf) : Prop :=
  ∀ r < nranks, (c.proc r).round = stagesOf (stepperOf job.sol.stepper) * job.nsteps

/-- The file `data.h5`, main.cpp 108-113, written by all ranks after the loop; `ord`: order of the writes. -/
noncomputable def jobFile (job : Job) (ranks : ℕ → RankReady) (dim nranks : ℕ) (ord : ℕ → List ℕ) (c : LoopConf) :
    Option (SolFile ℝ) := do
  let outs ← (List.range nranks).mapM fun r =>
    (c.proc r).st.2.map fun s => rankOut job.mesh job.fileDim nranks job.disc.nb (dim + 2) s.time true
      (ranks r).rm s.Uc
  writeFile true outs ord

/-- The dimensions for which `main` runs the solver, main.cpp 42-47: 2 and 3; for any other the program
ends without doing anything. -/
def mainDim (deck : Deck) : Option (Option ℕ) :=
  deck.dim.map fun d => if d = 2 then some 2 else if d = 3 then some 3 else none

end DG
