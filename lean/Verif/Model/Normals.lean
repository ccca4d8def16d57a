import Verif.Model.Shape
import Verif.Model.Basis
import Verif.Model.LinAlg

/-!
Model of the geometry of faces: physical coordinates of element points (`src/mesh/tools.cpp`),
face normals (`src/numerics/basis/shape.cpp`, `src/numerics/basis/basis.cpp`,
`src/numerics/basis/tools.cpp`, `src/solver/helpers.cpp`).

Simplifications: `rtype` is any type with the operations; rank-2 views are functions of their indices (the node lists of
faces index within the element by C16); one quadrature point at a time (points are independent);
the team of threads computing one face is one thread.
-/
namespace DG

variable {K : Type} [Zero K] [One K] [Add K] [Sub K] [Mul K] [Neg K] [Div K] [NatCast K] [DecidableEq K]

/-- `MeshTools::ref_to_phys`, mesh/tools.cpp:21-27, one point: `row` is the row of geometric basis
values of the point, `nb` its length, `elem` the node coordinates of the element; component `d`. -/
def refToPhys (dim nb : ℕ) (row : List K) (elem : ℕ → ℕ → K) : ℕ → K :=
  cAxB_to_C 1 1 dim nb (fun _ m => get0 row m) elem (fun _ _ => 0) 0

/-- `BasisTools::extract_node_coordinates`, basis/tools.cpp:28-41. -/
def extractNodes (elem : ℕ → ℕ → K) (nodes : List ℤ) : ℕ → ℕ → K :=
  fun i d => elem ((nodes[i]?).getD 0).toNat d

/-- `get_normals_on_face_quadrilateral`, shape.cpp:154-204, one point.  `grad` is the row of face
basis gradients of the point, `coords` the coordinates of the `n` face nodes. -/
def normalOnFaceQuad (sign : K) (n : ℕ) (grad : List K) (coords : ℕ → ℕ → K) : K × K :=
  let xg := cATxB_to_C 1 2 1 n coords (fun i _ => get0 grad i) (fun _ _ => 0)
  (sign * xg 1 0, -1 * sign * xg 0 0)

/-- `get_normals_on_face_hexahedron`, shape.cpp:482-532, one point; `grad` is the row of face basis
gradients (two components per function). -/
def normalOnFaceHex (sign : K) (n : ℕ) (grad : List (K × K)) (coords : ℕ → ℕ → K) : ℕ → K :=
  let xg := cATxB_to_C 1 3 2 n coords
    (fun i e => if e = 0 then ((grad[i]?).getD (0, 0)).1 else ((grad[i]?).getD (0, 0)).2)
    (fun _ _ => 0)
  scaleVec 3 sign (cross (fun j => xg j 0) (fun j => xg j 1) fun _ => 0)

/-- One normal of `precompute_normals` (helpers.cpp:371-500) for a quadrilateral element: the
gradients of the face basis are taken (`get_face_basis_ref_grad_for_normals`, basis.cpp:306-326) at
the first coordinate of the stored point of face 0 (stored in orientation 0, helpers.cpp:242-248);
the nodes are those of `face`.  `x` is the local face quadrature point. -/
def faceNormalQuad (sign : K) (g face : ℕ) (elem : ℕ → ℕ → K) (x : K) : Option (K × K) := do
  let nodes ← faceNodesQuad face g (List.replicate (nodesPerFaceQuad g) 0)
  let stored ← pointsOnFaceQuad 0 0 [x]
  let r ← stored[0]?
  let grad ← gradsLagrangeSeg g r.1 (List.replicate (numBasisSeg g) 0)
  some (normalOnFaceQuad sign (nodesPerFaceQuad g) grad (extractNodes elem nodes))

/-- One normal of `precompute_normals` for a hexahedron element; the gradients are taken at the
first two coordinates of the stored point of face 0 (basis.cpp:327-338). -/
def faceNormalHex (sign : K) (g face : ℕ) (elem : ℕ → ℕ → K) (p : K × K) : Option (ℕ → K) := do
  let nodes ← faceNodesHex face g (List.replicate (nodesPerFaceHex g) 0)
  let stored ← pointsOnFaceHex 0 0 [p]
  let r ← stored[0]?
  let grad ← gradsLagrangeQuad g r.1 r.2.1 (List.replicate (numBasisQuad g) (0, 0))
  some (normalOnFaceHex sign (nodesPerFaceHex g) grad (extractNodes elem nodes))

/-- Which element a rank takes the face nodes from, helpers.cpp:425-443: `none` = the message
"Bad things happened". -/
def normalSource (rank rankL rankR : ℕ) {α : Type} (left right : α) : Option (α × K) :=
  if rankL = rank then some (left, 1)
  else if rankR = rank then some (right, -1)
  else none

/-- The stored quadrature point a side of an interior face reads at index `iq`:
`quad_idx(iface, iq) = order_orient(iq)` (`precompute_facequadrature_lookup`, helpers.cpp:323-368)
into the points stored in orientation 0 (helpers.cpp:242-248).  Quadrilateral. -/
def sidePointQuad (face orient : ℕ) (pts : List K) (iq : ℕ) : Option (K × K) := do
  let order ← ptsOrderQuad orient pts.length (List.replicate pts.length 0)
  let stored ← pointsOnFaceQuad face 0 pts
  let k ← order[iq]?
  stored[k.toNat]?

/-- Same for a hexahedron. (shape.cpp:434-500) -/
def sidePointHex (face orient : ℕ) (pts : List (K × K)) (iq : ℕ) : Option (K × K × K) := do
  let order ← ptsOrderHex orient pts.length (List.replicate pts.length 0)
  let stored ← pointsOnFaceHex face 0 pts
  let k ← order[iq]?
  stored[k.toNat]?

end DG
