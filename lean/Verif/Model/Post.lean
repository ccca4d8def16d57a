import Verif.Model.Main

/-!
Model of the post-processor executable, `src/post/main.cpp`: read the inputs and the solution file
`data.h5`, print the error norms.

Not modelled: command line, console output other than the norms, finalisation.
-/
namespace DG

/-- `physics.call_exact_solution(x, time, u_exact)` as called in `get_error`, post/main.cpp 144-148; `junk`
as in `solverIC`. -/
noncomputable def solverExact (dim : ℕ) (ph : Physics) (junk : (ℕ → ℝ) → ℕ → ℝ) (time : ℝ) (x : ℕ → ℝ) : ℕ → ℝ :=
  ((callExact dim ph x time (junk x)).map Prod.fst).getD (junk x)

/-- The parts of `run_post<dim>`, post/main.cpp 208-238, that depend on the input files only: the same
calls as in `run_solver`; the number of time steps is not computed. -/
noncomputable def readPost (deck : Deck) (fs : String → List String → Option (MeshFile ℝ)) (un : Unset)
    (dim nranks : ℕ) : Option Job :=
  readInputs deck fs un dim nranks fun _ => some 0

/-- One rank of the post-processor before `get_error`. (post/main.cpp 208-245) -/
structure PostRank where
  /-- its part of the mesh -/
  rm : RankMesh ℝ
  /-- precomputed helpers -/
  geom : Geom ℝ
  /-- `solver.time` -/
  time : ℝ
  /-- `solver.Uc` -/
  uc : ℕ → ℕ → ℕ → ℝ

open Classical in
/-- `run_post<dim>` on one rank, post/main.cpp 218-245: partition of the mesh, `precompute_matrix_helpers`,
`read_in_coefficients`; `none` also if the coefficients read do not have an entry for every element of
the rank, basis function and variable, which `get_error` would access. -/
noncomputable def postRank (job : Job) (dim nranks : ℕ) (env : RankEnv) (f : SolFile ℝ) (r : ℕ) : Option PostRank := do
  let part := elemPartition job.nparts job.mesh.numElems env.metis
  let rm ← partition job.mesh job.nparts nranks part env.enum r
  let _ ← checkView rm
  let geom ← buildGeom job.num.basis job.num.gbasis job.num.order 1 r rm env.scr env.MM0
  let s ← readInCoefficients nranks f r newSolver
  if ∀ e < rm.numElemsPart, ∀ b < job.disc.nb, ∀ v < dim + 2, s.uc e b v ≠ none then
    some ⟨rm, geom, s.time, fun e b v => (s.uc e b v).getD 0⟩
  else none

/-- `get_error(solver, 2, true)`, post/main.cpp 34-206 and 248-250: the number printed for each state
variable; `Uq0`: contents of the freshly allocated `Uq` of each rank. -/
noncomputable def postPrint (job : Job) (un : Unset) (dim nranks : ℕ) (Uq0 : ℕ → ℕ → ℕ → ℕ → ℝ) (qs : ℕ → PostRank) :
    Option (ℕ → ℝ) := do
  let sh ← basisShape job.num.basis
  let gsh ← basisShape job.num.gbasis
  let gnb ← shapeNumBasis gsh.1 1
  -- 61-99
  let ref ← volRef (K := ℝ) job.num.basis job.num.gbasis job.num.order 1 (2 * max job.num.order 1)
  let nn := shapeNodes sh.1 1
  -- 101-109
  let Uq := fun r e => evaluateState ref.nq job.disc.nb (dim + 2) ref.val ((qs r).uc e) (Uq0 r e)
  -- 117-169
  let err := fun s r e =>
    elemError ref.nq 2 ref.wts (setupDjac dim nn ref (elemCoords (qs r).rm e)) (fun q => Uq r e q s)
      fun q => solverExact dim job.sol.physics un.ic (qs r).time
        (cArr dim (refToPhys dim gnb (ref.gval q) (elemCoords (qs r).rm e))) s
  -- 48-55, helpers.cpp 46-50, mesh/tools.cpp 41-51
  let vol := fun r => totVolPart true
    (localVolume (qs r).rm.numElemsPart fun e => elementVolume job.disc.nq job.disc.volWts ((qs r).geom.djac e))
  -- 174-199
  some fun s => errorNorm nranks 2 (fun r => (qs r).rm.numElemsPart) (err s) vol

end DG
