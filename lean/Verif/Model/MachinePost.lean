import Verif.Model.MachineMain
import Verif.Model.IO
import Verif.Model.Volume

/-!
The post-processor executable, `src/post/main.cpp`, in the arithmetic of a computer: the functions of `Model/Post` over any type
of numbers with the operations of the program, operation by operation.  Sums that Kokkos or MPI carry out (`parallel_reduce`,
`MPI_Allreduce`) are done in an order that the program does not determine.

Simplifications: as in `Model/Post` and `Model/MachineMain`; a thread or rank without work does not join the sums of the others.
-/
namespace DG.Fl

/-- How a sum is carried out by `Kokkos::parallel_reduce` or `MPI_Allreduce` (external): numbers are joined in some order, and
partial sums may start from zero. (called in mesh/tools.cpp 32, 42, post/main.cpp 163, 178 and memory_network.cpp 51) -/
inductive Reduction where
  /-- the initial value of a partial sum -/
  | zero
  /-- a number to be summed -/
  | item (i : ℕ)
  /-- two partial sums are added -/
  | join (a b : Reduction)

/-- the numbers that are summed (mesh/tools.cpp 32, 42, post/main.cpp 163, 178, memory_network.cpp 51) -/
def Reduction.items : Reduction → List ℕ
  | .zero => []
  | .item i => [i]
  | .join a b => a.items ++ b.items

/-- how many partial sums start from zero (mesh/tools.cpp 32, 42, post/main.cpp 163, 178, memory_network.cpp 51) -/
def Reduction.zeros : Reduction → ℕ
  | .zero => 1
  | .item _ => 0
  | .join a b => a.zeros + b.zeros

/-- the result (mesh/tools.cpp 32, 42, post/main.cpp 163, 178, memory_network.cpp 51) -/
def Reduction.run {K : Type} [Zero K] [Add K] (v : ℕ → K) : Reduction → K
  | .zero => 0
  | .item i => v i
  | .join a b => a.run v + b.run v

/-- a sum of `n` numbers: each of them once, with at most `n + 1` starts (mesh/tools.cpp 32, 42, post/main.cpp 163, 178, memory_network.cpp 51) -/
def Reduction.Sums (n : ℕ) (t : Reduction) : Prop := t.items.Perm (List.range n) ∧ t.zeros ≤ n + 1

/-- The orders of all sums of the post-processor. (mesh/tools.cpp 32, 42, post/main.cpp 163, 178, 186, 191) -/
structure PostSums where
  /-- points of an element of a rank, mesh/tools.cpp 33-37 -/
  volQ : ℕ → ℕ → Reduction
  /-- elements of a rank, mesh/tools.cpp 46-48 -/
  volE : ℕ → Reduction
  /-- ranks, post/main.cpp 188 -/
  volR : Reduction
  /-- points of an element of a rank for a variable, post/main.cpp 160-164 -/
  errQ : ℕ → ℕ → ℕ → Reduction
  /-- elements of a rank for a variable, post/main.cpp 177-180 -/
  errE : ℕ → ℕ → Reduction
  /-- ranks for a variable, post/main.cpp 192 -/
  errR : ℕ → Reduction

section
variable {K : Type} [Zero K] [One K] [Add K] [Sub K] [Mul K] [Neg K] [Div K] [NatCast K] [HasSqrt K] [HasLibm K] [DecLit K]
  [LT K] [DecidableLT K] [LE K] [DecidableLE K] [DecidableEq K]

/-- `Physics<dim>::call_exact_solution`, physics/base/base.cpp 105-135, without its message. -/
def callExact (dim : ℕ) (ph : Physics K) (x : ℕ → K) (t : K) (Uq : ℕ → K) : Option (ℕ → K) :=
  match dim with
  | 2 => match ph.ic with
    | .Uniform => setUniform 4 ph.icData Uq
    | .Gaussian => none
    | .IsentropicVortex => if 5 ≤ ph.icData.length then vortex2 (fun i => ph.icData.getD i 0) ph.γ ph.R x t Uq else none
    | .Sphere => some Uq
  | 3 => match ph.ic with
    | .Sphere => none
    | .Uniform => setUniform 5 ph.icData Uq
    | .IsentropicVortex => some (vortex3 ph.γ x t Uq)
    | .Gaussian => some Uq
  | _ => none

/-- `physics.call_exact_solution(x, time, u_exact)` as called in `get_error`, post/main.cpp 144-148. -/
def solverExact (dim : ℕ) (ph : Physics K) (junk : ℕ → K) (time : K) (x : ℕ → K) : ℕ → K :=
  (callExact dim ph x time junk).getD junk

/-- The parts of `run_post<dim>`, post/main.cpp 208-238, that depend on the input files only: the same calls as in
`run_solver`; the number of time steps is not computed. -/
def readPost (deck : Deck K) (fs : String → List String → Option (MeshFile K)) (un : Unset K) (dim nranks : ℕ) : Option (Job K) :=
  readJob (fun _ => some 0) deck fs un dim nranks

/-- One rank of the post-processor before `get_error`. (post/main.cpp 208-245) -/
structure PostRank (K : Type) where
  /-- its part of the mesh -/
  rm : RankMesh K
  /-- precomputed helpers -/
  geom : Geom K
  /-- `solver.time` -/
  time : K
  /-- `solver.Uc` -/
  uc : ℕ → ℕ → ℕ → K

open Classical in
/-- `run_post<dim>` on one rank, post/main.cpp 218-245: partition of the mesh, `precompute_matrix_helpers`,
`read_in_coefficients`; `none` also if the coefficients read do not have an entry for every element of the rank, basis function
and variable. -/
noncomputable def postRank (job : Job K) (dim nranks : ℕ) (env : RankEnv K) (f : SolFile K) (r : ℕ) : Option (PostRank K) := do
  let part := elemPartition job.nparts job.mesh.numElems env.metis
  let rm ← partition job.mesh job.nparts nranks part env.enum r
  let _ ← checkView rm
  let geom ← buildGeom job.num.basis job.num.gbasis job.num.order 1 r rm env.scr env.MM0
  let s ← readInCoefficients nranks f r newSolver
  if ∀ e < rm.numElemsPart, ∀ b < job.disc.nb, ∀ v < dim + 2, s.uc e b v ≠ none then
    some ⟨rm, geom, s.time, fun e b v => (s.uc e b v).getD 0⟩
  else none

/-- `error_elem(elem_ID, is)`, post/main.cpp 158-167, with `ord = 2`: `pow` with an integer exponent -/
def elemError (w djac uq uex : ℕ → K) (t : Reduction) : K :=
  t.run fun q => HasLibm.powi (uq q - uex q) 2 * w q * djac q

/-- `total_error[is]`, post/main.cpp 176-196: `pow(total_error / total_volume, 1. / ord)` with `ord = 2` -/
def errorNorm (err vol : ℕ → K) (te tv : Reduction) : K :=
  HasLibm.pow (te.run err / tv.run vol) (1 / 2)

/-- `get_error(solver, 2, true)`, post/main.cpp 34-206 and 248-250: the number printed for each state variable; `Uq0`:
contents of the freshly allocated `Uq` of each rank. -/
def postPrint (job : Job K) (un : Unset K) (dim : ℕ) (Uq0 : ℕ → ℕ → ℕ → ℕ → K) (sums : PostSums) (qs : ℕ → PostRank K) :
    Option (ℕ → K) := do
  let sh ← basisShape job.num.basis
  let gsh ← basisShape job.num.gbasis
  let gnb ← shapeNumBasis gsh.1 1
  -- 61-99
  let ref ← volRef (K := K) job.num.basis job.num.gbasis job.num.order 1 (2 * max job.num.order 1)
  let nn := shapeNodes sh.1 1
  -- 101-109
  let Uq := fun r e => evaluateState ref.nq job.disc.nb (dim + 2) ref.val ((qs r).uc e) (Uq0 r e)
  -- 117-169
  let err := fun s r e =>
    elemError ref.wts (setupDjac dim nn ref (elemCoords (qs r).rm e)) (fun q => Uq r e q s)
      (fun q => solverExact dim job.sol.physics un.ic (qs r).time
        (cArr dim (refToPhys dim gnb (ref.gval q) (elemCoords (qs r).rm e))) s) (sums.errQ r e s)
  -- 48-55, helpers.cpp 46-50, mesh/tools.cpp 28-51
  let vol := fun r => (sums.volE r).run fun e => (sums.volQ r e).run fun q => job.disc.volWts q * (qs r).geom.djac e q
  -- 174-199
  some fun s => errorNorm (fun r => (sums.errE r s).run (err s r)) vol (sums.errR s) sums.volR

end

end DG.Fl
