import Verif.Model.Mass
import Verif.Model.Mesh
import Mathlib.Analysis.SpecialFunctions.Pow.Real

/-!
Model of `src/mesh/tools.cpp` and of the error norms of `src/post/main.cpp`.

Simplifications: reads of the node tables are total (`C03` shows they are in bounds); the element loop
is sequential; `MPI_Allreduce(MPI_SUM)` (memory_network.cpp:49-53) is the sum over the ranks in rank
order; `rtype` is ℝ where a real power is taken.
-/
namespace DG

variable {K : Type} [Zero K] [One K] [Add K] [Sub K] [Mul K] [Neg K] [Div K] [NatCast K]

/-- `MeshTools::elem_coords_from_elem_ID`, mesh/tools.cpp:5-17: coordinate `d` of node `i` of local
element `k`. -/
def elemCoords (rm : RankMesh K) (k : ℕ) : ℕ → ℕ → K := fun i d =>
  get0 ((rm.nodeCoords[((rm.elemToNode[k]?).getD [])[i]?.getD 0]?).getD []) d

/-- `network.allreduce` with `MPI_SUM`, memory_network.cpp:49-53. -/
def allreduceSum (nranks : ℕ) (v : ℕ → K) : K := loopSum nranks v

variable [DecidableEq K]

/-- Jacobian determinants of an element at the quadrature points, basis/tools.cpp:43-83; `grads q` are the
reference gradients of the geometric basis at point `q`. -/
def elemDjac (dim nn : ℕ) (grads : ℕ → ℕ → ℕ → K) (coords : ℕ → ℕ → K) (jac0 : ℕ → ℕ → ℕ → K)
    (djac0 : ℕ → K) : ℕ → K := fun q =>
  (elementJacobian dim nn coords (grads q) (jac0 q) (djac0 q) fun _ _ => 0).2.1

/-- Volume of the elements of one rank, `compute_volume_helpers`, helpers.cpp:46-50, and their sum
`get_total_volume`, mesh/tools.cpp:41-51. -/
def rankVolume (dim nn nq : ℕ) (grads : ℕ → ℕ → ℕ → K) (w : ℕ → K) (rm : RankMesh K)
    (jac0 : ℕ → ℕ → ℕ → K) (djac0 : ℕ → K) : K :=
  localVolume rm.numElemsPart fun k =>
    elementVolume nq w (elemDjac dim nn grads (elemCoords rm k) jac0 djac0)

/-- Element contribution to the error of one state variable, post/main.cpp:160-168. -/
noncomputable def elemError (nq ord : ℕ) (w djac : ℕ → ℝ) (uq uex : ℕ → ℝ) : ℝ :=
  loopSum nq fun q => (uq q - uex q) ^ ord * w q * djac q

/-- `get_error`, post/main.cpp:176-196: sum over the elements of the rank, allreduce of error and
volume, then `pow(total_error / total_volume, 1./ord)`; `vol r` is `tot_vol_part` of rank `r`. -/
noncomputable def errorNorm (nranks : ℕ) (ord : ℕ) (ne : ℕ → ℕ) (err : ℕ → ℕ → ℝ) (vol : ℕ → ℝ) : ℝ :=
  (allreduceSum nranks (fun r => loopSum (ne r) (err r)) / allreduceSum nranks vol) ^ ((1 : ℝ) / (ord : ℝ))

/-- `tot_vol_part`, post/main.cpp:50-55. -/
def totVolPart {K : Type} [Field K] (normalize : Bool) (localVol : K) : K := if normalize then localVol else 1

end DG
