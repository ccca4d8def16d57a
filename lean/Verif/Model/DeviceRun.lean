import Verif.Model.Kernels

/-!
The run of the solver with the kernels executed by the machine of `Model/Device.lean`: every rank has
its own memory; between two exchanges it launches the kernels of `get_residual` and of the time stepper
one after the other, each of which runs under an arbitrary interleaving of its threads.

Simplification: `MPI_Recv` stores into the ghost buffers when the message is received; here the received
messages are stored when the barrier opens (no kernel of the rank runs in between).  After the last
residual of a run the model computes face states that the code does not need and does not compute.
-/
namespace DG.Dev

variable {K : Type} [Zero K] [One K] [Add K] [Sub K] [Mul K] [Neg K] [Div K] [NatCast K]

/-- Memory of a rank and the host variables of the time loop. (solver/base.h 17-90) -/
structure DevState (K : Type) where
  mem : Cell → K
  stage : ℕ
  time : K
  evals : ℕ

/-- The kernels from the return of one exchange (barrier, memory_network.cpp 139) to the first
`MPI_Isend` of the next one: unpacking (142-174), the rest of `get_residual` (base.cpp 544-560), the
stage update (stepper.cpp), the next `get_residual` up to the exchange (base.cpp 405-509), packing
(memory_network.cpp 68-100). -/
def deviceRound {α : Type} (run : Launch K) (d : Disc K) (g : Geom K) (rm : RankMesh α) (rank : ℕ) (dt : K)
    (st : Stepper) (stage : ℕ) : (Cell → K) → (Cell → K) → Prop :=
  Then (unpackAll run d rm rank rm.nbrs.length) <|
  Then (afterExchange run d g rank rm.numElemsPart rm.rows) <|
  Then (stageUpdate run d rm.numElemsPart dt g.iMM st stage) <|
  Then (beforeExchange run d g rank rm.numElemsPart rm.rows) <|
  packAll run d rm rank rm.nbrs.length

/-- The kernels of `solve` up to the first `MPI_Isend`: stepper.cpp 74-78 (RK4), then as above. -/
def deviceStart {α : Type} (run : Launch K) (d : Disc K) (g : Geom K) (rm : RankMesh α) (rank : ℕ)
    (st : Stepper) : (Cell → K) → (Cell → K) → Prop :=
  Then (match st with
    | .FE => Eq
    | .RK4 => run (copyKernel rm.numElemsPart d.nb d.ns .Uc .Uhold)) <|
  Then (beforeExchange run d g rank rm.numElemsPart rm.rows) <|
  packAll run d rm rank rm.nbrs.length

/-- `stage` and `time` after a stage update: stepper.cpp 50 (FE), 98, 125 (RK4). -/
def hostUpdate (st : Stepper) (dt : K) (stage : ℕ) (time : K) : ℕ × K :=
  match st with
  | .FE => (0, time + dt)
  | .RK4 =>
    match stage with
    | 0 => (1, time + dt / 2)
    | 1 => (2, time)
    | 2 => (3, time + dt / 2)
    | _ => (0, time)

/-- Memory when `solve` is called: the coefficients, everything else zero (Kokkos initialises views;
base.cpp 563-598, stepper.cpp 57-69). -/
def memInit (Uc0 : ℕ → ℕ → ℕ → K) : Cell → K := fun c =>
  if c.view = .Uc ∧ c.l = 0 then Uc0 c.i c.j c.k else 0

/-- the contents of send buffer number `n` (`cnt` faces) as a message (memory_network.cpp 113-119) -/
def bufferMsg (d : Disc K) (m : Cell → K) (n cnt : ℕ) : List (ℕ → ℕ → K) :=
  (List.range cnt).map fun i => fun j k => if j < d.nqf ∧ k < d.ns then m ⟨.sendBuf n, i, j, k, 0⟩ else 0

/-- the received messages stored in the ghost buffers (memory_network.cpp 129-136) -/
def storeGhosts (d : Disc K) (bufs : List (List (ℕ → ℕ → K))) (m : Cell → K) : Cell → K := fun c =>
  match c.view with
  | .ghostBuf n =>
    match (bufs[n]?).bind (fun buf => buf[c.i]?) with
    | some B => if c.j < d.nqf ∧ c.k < d.ns ∧ c.l = 0 then B c.j c.k else m c
    | none => m c
  | _ => m c

/-- How the kernels of all ranks are executed, in all rounds: memory at the end of the kernels of a
round as a function of rank, number of the residual evaluation, stage, and memory before it. (solver/base.cpp 387-393) -/
structure Executions (K : Type) where
  start : ℕ → (Cell → K) → (Cell → K)
  round : ℕ → ℕ → ℕ → (Cell → K) → (Cell → K)

/-- The outcomes are outcomes of executions of the machine (whenever there is one). (solver/base.cpp 387-393) -/
structure Executions.OK {α : Type} (x : Executions K) (d : Disc K) (g : ℕ → Geom K) (rms : ℕ → RankMesh α)
    (dt : K) (st : Stepper) : Prop where
  start : ∀ r m, (∃ m', deviceStart Kernel.Ends d (g r) (rms r) r st m m') →
    deviceStart Kernel.Ends d (g r) (rms r) r st m (x.start r m)
  round : ∀ r k stage m, (∃ m', deviceRound Kernel.Ends d (g r) (rms r) r dt st stage m m') →
    deviceRound Kernel.Ends d (g r) (rms r) r dt st stage m (x.round r k stage m)

/-- state of a rank before its first exchange (solver/base.cpp 377-393, up to the first call of memory_network.cpp 55-175) -/
def deviceInit (x : Executions K) (Uc0 : ℕ → ℕ → ℕ → ℕ → K) (r : ℕ) : DevState K :=
  ⟨x.start r (memInit (Uc0 r)), 0, 0, 0⟩

/-- The program run by all ranks for `nsteps` time steps (base.cpp 377-399). -/
def deviceProg {α : Type} (x : Executions K) (d : Disc K) (rms : ℕ → RankMesh α) (nranks : ℕ) (dt : K)
    (st : Stepper) (nsteps : ℕ) : Proto.Prog (DevState K) (List (ℕ → ℕ → K)) where
  nranks := nranks
  rounds := stagesOf st * nsteps
  nbrs := fun r => (rms r).nbrs
  pack := fun r s k => some (bufferMsg d s.mem k (((rms r).nFacesPerNbr[k]?).getD 0))
  accept := fun r k m => (rms r).nFacesPerNbr[k]? == some m.length
  finish := fun r s bufs => some
    { mem := x.round r s.evals s.stage (storeGhosts d bufs s.mem)
      stage := (hostUpdate st dt s.stage s.time).1
      time := (hostUpdate st dt s.stage s.time).2
      evals := s.evals + 1 }

end DG.Dev
