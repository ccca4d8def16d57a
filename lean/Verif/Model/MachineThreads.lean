import Verif.Model.MachineMain
import Verif.Model.DeviceLaunch

/-!
The solver executable, `src/exec/main.cpp`, in the arithmetic of a computer and down to the threads: the ranks read the input
files and partition the mesh as in `Model/MachineMain`, but every kernel of the setup and of the time loop is executed by the
threads of `Model/Device`.
-/
namespace DG.Dev

section
variable {K : Type} [Zero K] [One K] [Add K] [Sub K] [Mul K] [Neg K] [Div K] [NatCast K] [HasSqrt K] [HasLibm K] [DecLit K]
  [LT K] [DecidableLT K] [LE K] [DecidableLE K] [DecidableEq K]

/-- The mesh of one rank, exec/main.cpp 57-65: `Mesh` partitions on the host. -/
def threadMesh (job : Fl.Job K) (nranks : ℕ) (env : RankEnv K) (r : ℕ) : Option (RankMesh K) := do
  let part := elemPartition job.nparts job.mesh.numElems env.metis
  let rm ← partition job.mesh job.nparts nranks part env.enum r
  let _ ← checkView rm
  some rm

/-- The kernels of the setup of one rank, exec/main.cpp 67-99: the solver is constructed, `precompute_matrix_helpers`,
`init_state_from_fcn`; `mem`, `nor`: the views of the rank afterwards. -/
abbrev JobSetup (job : Fl.Job K) (un : Fl.Unset K) (dim r : ℕ) (rm : RankMesh K) (mem : SCell → K) (nor : NCell → K) :=
  SetupRun job.num.basis job.num.gbasis job.num.order 1 (dim + 2) r (Fl.solverIC dim job.sol.physics un.ic) rm mem nor

/-- Executions of the kernels of the time loop on the views the setup has left. (exec/main.cpp 106) -/
abbrev JobKernels (job : Fl.Job K) (rms : ℕ → RankMesh K) (mem : ℕ → SCell → K) (nor : ℕ → NCell → K) (x : Executions K) : Prop :=
  x.OK job.disc (fun r => readGeom (mem r) (nor r)) rms job.sol.dt (stepperOf job.sol.stepper)

/-- `solver.solve()`, exec/main.cpp 106, as the program of all ranks. -/
def threadProg (job : Fl.Job K) (rms : ℕ → RankMesh K) (nranks : ℕ) (x : Executions K) : Proto.Prog (DevState K) (List (ℕ → ℕ → K)) :=
  deviceProg x job.disc rms nranks job.sol.dt (stepperOf job.sol.stepper) job.nsteps

/-- the configurations of the ranks inside `solver.solve()` (exec/main.cpp 106) -/
abbrev ThreadConf (K : Type) := Proto.Conf (DevState K) (List (ℕ → ℕ → K))

/-- The ranks on entering `solver.solve()`, exec/main.cpp 106: the first face states are computed. -/
def threadInit (x : Executions K) (mem : ℕ → SCell → K) : ThreadConf K := Proto.init (deviceInit x fun r => readCoeffs (mem r))

/-- The file `data.h5`, exec/main.cpp 108-113, from the views `Uc` in the memory of the ranks. -/
def threadFile (job : Fl.Job K) (rms : ℕ → RankMesh K) (dim nranks : ℕ) (ord : ℕ → List ℕ) (c : ThreadConf K) : Option (SolFile K) :=
  writeFile true ((List.range nranks).map fun r => rankOut job.mesh job.fileDim nranks job.disc.nb (dim + 2) (c.proc r).st.time true
    (rms r) fun i b v => (c.proc r).st.mem ⟨.Uc, i, b, v, 0⟩) ord

end

/-- All ranks have left the time loop, solver/base.cpp 387-393. -/
def ThreadsDone {K : Type} (job : Fl.Job K) (nranks : ℕ) (c : ThreadConf K) : Prop :=
  ∀ r < nranks, (c.proc r).round = stagesOf (stepperOf job.sol.stepper) * job.nsteps

end DG.Dev
