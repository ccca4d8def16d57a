import Verif.Model.LinAlg
import Verif.Model.Quadrature

/-!
Model of the element-wise dense kernels: `src/numerics/basis/tools.cpp:43-110`,
`src/solver/tools.cpp:7-138`, `src/solver/helpers.cpp:54-100, 182-196`,
`src/mesh/tools.cpp:7-51`.

Simplifications: as in `Model/LinAlg.lean` (views are functions of their indices, extents passed
separately, `rtype` is any type with the operations, team-parallel loops are their sequential meaning: the iterations of
each loop write disjoint entries).  Scratch memory is uninitialised in the code: its previous
contents are arguments (`MM0`, `scr0`, `rhs0`) and the theorems quantify over them.
-/
namespace DG

variable {K : Type} [Zero K] [One K] [Add K] [Sub K] [Mul K] [Neg K] [Div K] [NatCast K]

/-- `Math::copy_A_to_B`, linear_algebra.cpp:70-73, on an `m × n` view. -/
def copyTo (m n : ℕ) (A B : ℕ → ℕ → K) : ℕ → ℕ → K := fun i j => if i < m ∧ j < n then A i j else B i j

/-- Scaling of every row `iq < nq` by `quad_wts(iq) * djac(iq)`, basis/tools.cpp:99-102 and
solver/tools.cpp:82-85. -/
def scaleRows (nq n : ℕ) (w djac : ℕ → K) (A : ℕ → ℕ → K) : ℕ → ℕ → K := fun iq =>
  if iq < nq then scaleVec n (w iq * djac iq) (A iq) else A iq

variable [DecidableEq K]

/-- The mass matrix of basis/tools.cpp:93-105. -/
def massMatrix (nq nb : ℕ) (w djac : ℕ → K) (B : ℕ → ℕ → K) (scr0 MM0 : ℕ → ℕ → K) : ℕ → ℕ → K :=
  cATxB_to_C 1 nb nb nq B (scaleRows nq nb w djac (copyTo nq nb B scr0)) MM0

/-- `BasisTools::get_inv_mass_matrices`, basis/tools.cpp:86-110; `iMM0` is the stored view on entry. -/
def invMass (nq nb : ℕ) (w djac : ℕ → K) (B : ℕ → ℕ → K) (scr0 MM0 iMM0 : ℕ → ℕ → K) : ℕ → ℕ → K :=
  invA nb (massMatrix nq nb w djac B scr0 MM0) iMM0

/-- `BasisTools::get_element_jacobian` at one quadrature point, basis/tools.cpp:43-69 (and 71-83
without the inverse): the Jacobian, its determinant and its inverse.  `coords` is
`nn × dim` (node, direction), `grad` is `nn × dim` (basis function, reference direction). -/
def elementJacobian (dim nn : ℕ) (coords grad jac0 : ℕ → ℕ → K) (djac0 : K) (ijac0 : ℕ → ℕ → K) :
    (ℕ → ℕ → K) × K × (ℕ → ℕ → K) :=
  let jac := cATxB_to_C 1 dim dim nn coords grad jac0
  (jac, detTo dim jac djac0, invA dim jac ijac0)

/-- `SolverTools::L2_projection`, solver/tools.cpp:69-122: the coefficients `U` (`nb × ns`). -/
def l2Projection (nq nb ns : ℕ) (iMM : ℕ → ℕ → K) (B : ℕ → ℕ → K) (djac w : ℕ → K)
    (f : ℕ → ℕ → K) (rhs0 U0 : ℕ → ℕ → K) : ℕ → ℕ → K :=
  let f := scaleRows nq ns w djac f
  let rhs := cATxB_to_C 1 nb ns nq B f rhs0
  cAxB_to_C 1 nb ns nb iMM rhs U0

/-- `VolumeHelpers::evaluate_state` for one element, helpers.cpp:182-196: `Uq` (`nq × ns`). -/
def evaluateState (nq nb ns : ℕ) (B Uc Uq0 : ℕ → ℕ → K) : ℕ → ℕ → K :=
  cAxB_to_C 1 nq ns nb B Uc Uq0

/-- `SolverTools::mult_inv_mass_matrix` for one element, solver/tools.cpp:124-138. -/
def multInvMass (nb ns : ℕ) (dt : K) (iMM res dU0 : ℕ → ℕ → K) : ℕ → ℕ → K :=
  cAxB_to_C dt nb ns nb iMM res dU0

omit [DecidableEq K]

/-- `MeshTools::get_element_volume`, mesh/tools.cpp:29-39. -/
def elementVolume (nq : ℕ) (w djac : ℕ → K) : K := loopSum nq fun q => w q * djac q

/-- `MeshTools::get_total_volume` on one rank (before the allreduce), mesh/tools.cpp:41-51. -/
def localVolume (ne : ℕ) (vol : ℕ → K) : K := loopSum ne vol

/-- `basis.get_values(quad_pts, basis_val)`: the rows of all points (the loop over the points of
basis.cpp, e.g. 62-71 for the quadrilateral); `init` are the rows of the view on entry. (numerics/basis/basis.cpp:62-71) -/
def valuesAt {α : Type} (f : α → List K → Option (List K)) (pts : List α) (init : List K) :
    Option (List (List K)) :=
  pts.mapM fun pt => f pt init

/-- entry `(q, i)` of a rank-2 view given by its rows (`basis_val` of numerics/basis/tools.cpp:85-110) -/
def rowsView (rows : List (List K)) : ℕ → ℕ → K := fun q i => get0 ((rows[q]?).getD []) i

/-- Polynomial order handed to `get_quadrature` for the mass matrices (helpers.cpp:58) and for the
initial condition (base.cpp:128-130). -/
def massRuleOrder (p : ℕ) : ℕ := 2 * p
/-- see `massRuleOrder` (base.cpp:128-130) -/
def projRuleOrder (p : ℕ) : ℕ := 2 * max p 1

end DG
