import Verif.Model.Normals
import Verif.Model.Volume
import Verif.Model.Enums
import Verif.Model.Solver

/-!
Model of the setup of the solver: `Solver::precompute_matrix_helpers` (`src/solver/base.cpp` 70-111),
`VolumeHelperFunctor` and `InteriorFaceHelperFunctor` (`src/solver/helpers.cpp`), the dispatch of
`Basis` and `Shape` (`src/numerics/basis/basis.cpp` 234-340, `shape.cpp` 534-651) and
`Solver::init_state_from_fcn` (`base.cpp` 114-226).

Simplifications: reference points are triples, coordinates a shape does not have are 0; `rtype` is
any type with the operations; the reference tables are computed on freshly allocated (zero) views: a view that is resized a
second time (helpers.cpp 128-129, 153-154) keeps old entries, all of which are overwritten for the
orders that have a table (C25, C21); the space dimension of mesh and physics is that of the shape of
the basis; the face tables of gradients and of the geometric basis (helpers.cpp 294-308) are not
used by the solver and not modelled; the element loop is sequential (elements write disjoint
entries).
-/
namespace DG

variable {K : Type} [Zero K] [One K] [Add K] [Sub K] [Mul K] [Neg K] [Div K] [NatCast K] [DecLit K]

/-- `Shape::NDIMS`, shape.cpp 534-594 (not set for triangles) -/
def shapeDim : ShapeType → ℕ
  | .Segment => 1
  | .Quadrilateral => 2
  | .Hexahedron => 3
  | .Triangle => 0

/-- `Shape::NFACES`, shape.cpp 534-594 (not set for triangles) -/
def shapeFaces : ShapeType → ℕ
  | .Segment => 2
  | .Quadrilateral => 4
  | .Hexahedron => 6
  | .Triangle => 0

/-- `Shape::NUM_ORIENT_PER_FACE`, shape.cpp 534-594 (not set for triangles) -/
def shapeOrients : ShapeType → ℕ
  | .Segment => 1
  | .Quadrilateral => 2
  | .Hexahedron => 8
  | .Triangle => 0

/-- `get_num_nodes_per_elem`, shape.cpp 26-44 through the pointers of 534-594 -/
def shapeNodes (s : ShapeType) (g : ℕ) : ℕ :=
  match s with
  | .Segment => g + 1
  | .Quadrilateral => nodesPerElemQuad g
  | .Hexahedron => nodesPerElemHex g
  | .Triangle => 0

/-- The rule used for polynomial order `order`: `VolumeHelperFunctor::get_quadrature`,
helpers.cpp 117-140 (same calls in 213-230 for faces and base.cpp 128-143 for the initial condition):
`get_quadrature_order`, `get_number_of_quadrature_points` and `get_quadrature_data` of the shape. -/
def getQuadrature (s : ShapeType) (order : ℕ) : Option (List (K × K × K) × List K) :=
  match s with
  | .Segment =>
    (segmentGL (segGaussOrder order) (List.replicate (numQuadPoints (segGaussOrder order) 1 0).2 0)
      (List.replicate (numQuadPoints (segGaussOrder order) 1 0).2 0)).map fun pw =>
        (pw.1.map fun x => (x, 0, 0), pw.2)
  | .Quadrilateral =>
    (quadGL (quadGaussOrder order) (numQuadPoints (quadGaussOrder order) 2 0).1
      (List.replicate (numQuadPoints (quadGaussOrder order) 2 0).2 (0, 0))
      (List.replicate (numQuadPoints (quadGaussOrder order) 2 0).2 0)).map fun pw =>
        (pw.1.map fun x => (x.1, x.2, 0), pw.2)
  | .Hexahedron =>
    hexGL (gaussOrder order) (numQuadPoints (gaussOrder order) 3 0).1
      (List.replicate (numQuadPoints (gaussOrder order) 3 0).2 (0, 0, 0))
      (List.replicate (numQuadPoints (gaussOrder order) 3 0).2 0)
  | .Triangle => none

/-- entry (function, direction) of the gradients of one point, one direction (basis.cpp 299-304) -/
def grad1 (g : List K) : ℕ → ℕ → K := fun n c => match c with
  | 0 => get0 g n
  | _ => 0

/-- entry (function, direction) of the gradients of one point, two directions (basis.cpp 299-304) -/
def grad2 (g : List (K × K)) : ℕ → ℕ → K := fun n c => match c with
  | 0 => ((g[n]?).getD (0, 0)).1
  | 1 => ((g[n]?).getD (0, 0)).2
  | _ => 0

/-- entry (function, direction) of the gradients of one point, three directions (basis.cpp 299-304) -/
def grad3 (g : List (K × K × K)) : ℕ → ℕ → K := fun n c => match c with
  | 0 => ((g[n]?).getD (0, 0, 0)).1
  | 1 => ((g[n]?).getD (0, 0, 0)).2.1
  | 2 => ((g[n]?).getD (0, 0, 0)).2.2
  | _ => 0

/-- `Basis::get_grads`, basis.cpp 299-304, through the pointer set by the constructor (238-291), for
one point, on a zero view with `nb` functions; `none` as for `basisValues`. -/
def basisGrads (t : BasisType) (order nb : ℕ) (pt : K × K × K) : Option (ℕ → ℕ → K) :=
  match t with
  | .LagrangeSeg => (gradsLagrangeSeg order pt.1 (List.replicate nb 0)).map grad1
  | .LagrangeQuad => (gradsLagrangeQuad order pt.1 pt.2.1 (List.replicate nb (0, 0))).map grad2
  | .LagrangeHex =>
    (gradsLagrangeHex order pt.1 pt.2.1 pt.2.2 (List.replicate nb (0, 0, 0))).map grad3
  | .LegendreSeg => (gradsLegendreSeg order pt.1 (List.replicate nb 0)).map grad1
  | .LegendreQuad => (gradsLegendreQuad order pt.1 pt.2.1 (List.replicate nb (0, 0))).map grad2
  | .LegendreHex =>
    (gradsLegendreHex order pt.1 pt.2.1 pt.2.2 (List.replicate nb (0, 0, 0))).map grad3
  | _ => none

/-- Basis values at a list of points, as rows. (basis.cpp 292-298) -/
def valueRows (t : BasisType) (order nb : ℕ) (pts : List (K × K × K)) : Option (List (List K)) :=
  valuesAt (fun pt row => basisValues t order pt.1 pt.2.1 pt.2.2 row) pts (List.replicate nb 0)

/-- What `get_quadrature` and `get_reference_data` leave in a `VolumeHelperFunctor`. (helpers.h 40-56, helpers.cpp 102-182) -/
structure RefData (K : Type) where
  nq : ℕ
  wts : ℕ → K                       -- quad_wts(iq)
  val : ℕ → ℕ → K                   -- basis_val(iq, ib)
  grad : ℕ → ℕ → ℕ → K              -- basis_ref_grad(iq, ib, id)
  gval : ℕ → List K                 -- gbasis_val, the row of point iq
  ggrad : ℕ → ℕ → ℕ → K             -- gbasis_ref_grad(iq, ib, id)

/-- `get_quadrature(basis, qorder)` and `get_reference_data(basis, gbasis, p)`, helpers.cpp 116-180;
also the tables of `init_state_from_fcn`, base.cpp 128-167.  `t`, `p`: basis; `gt`, `gorder`:
geometric basis. -/
def volRef (t gt : BasisType) (p gorder qorder : ℕ) : Option (RefData K) := do
  let sh ← basisShape t
  let gsh ← basisShape gt
  let nb ← shapeNumBasis sh.1 p
  let gnb ← shapeNumBasis gsh.1 gorder
  let pw ← getQuadrature sh.1 qorder
  let val ← valueRows t p nb pw.1
  let grad ← pw.1.mapM (basisGrads t p nb)
  let gval ← valueRows gt gorder gnb pw.1
  let ggrad ← pw.1.mapM (basisGrads gt gorder gnb)
  some { nq := pw.1.length, wts := get0 pw.2, val := rowsView val,
         grad := fun q => (grad[q]?).getD fun _ _ => 0,
         gval := fun q => (gval[q]?).getD [],
         ggrad := fun q => (ggrad[q]?).getD fun _ _ => 0 }

/-- `Shape::get_points_on_face` with orientation 0, shape.cpp 80-112 and 300-363 through the pointers of
534-594 -/
def pointsOnFace (s : ShapeType) (face : ℕ) (pts : List (K × K × K)) : Option (List (K × K × K)) :=
  match s with
  | .Quadrilateral => (pointsOnFaceQuad face 0 (pts.map fun x => x.1)).map fun l =>
      l.map fun x => (x.1, x.2, 0)
  | .Hexahedron => pointsOnFaceHex face 0 (pts.map fun x => (x.1, x.2.1))
  | _ => none

/-- What `get_quadrature` and `get_reference_data` leave in an `InteriorFaceHelperFunctor`. (helpers.h 75-130, helpers.cpp 240-322) -/
structure FaceRef (K : Type) where
  nqf : ℕ
  wts : ℕ → K                       -- quad_wts(iq)
  pts : List (K × K × K)            -- points of the face rule (local_quad_pts)
  val : ℕ → ℕ → ℕ → K               -- basis_val(face, iq, ib)

/-- Basis values at the points of one face, helpers.cpp 244-248 and 290-300. -/
def faceRows (t : BasisType) (s : ShapeType) (p nb : ℕ) (pts : List (K × K × K)) (face : ℕ) :
    Option (List (List K)) :=
  (pointsOnFace s face pts).bind (valueRows t p nb)

/-- `InteriorFaceHelperFunctor::get_quadrature` and `get_reference_data`, helpers.cpp 213-321. -/
def faceRef (t : BasisType) (p : ℕ) : Option (FaceRef K) := do
  let sh ← basisShape t
  let fsh ← sh.2
  let nb ← shapeNumBasis sh.1 p
  let pw ← getQuadrature fsh p
  let val ← (List.range (shapeFaces sh.1)).mapM (faceRows t sh.1 p nb pw.1)
  some { nqf := pw.1.length, wts := get0 pw.2, pts := pw.1,
         val := fun f => rowsView ((val[f]?).getD []) }

/-- `Shape::get_face_pts_order_wrt_orient0`, shape.cpp 596-607, on a zero view (an unknown
orientation leaves the view as it is; the code reuses one view for all faces). -/
def facePtsOrder (s : ShapeType) (orient n : ℕ) : List ℤ :=
  match s with
  | .Quadrilateral => (ptsOrderQuad orient n (List.replicate n 0)).getD []
  | .Hexahedron => (ptsOrderHex orient n (List.replicate n 0)).getD []
  | _ => []

/-- Everything the residual needs that does not depend on the mesh: `Solver::Solver` (base.cpp 33,
57-66), the second volume tables (`compute_volume_helpers`, helpers.cpp 10-11, which replace those of
the mass matrix) and the face tables (helpers.cpp 207-208, and 348-364 for the order of the points). -/
def buildDisc (t gt : BasisType) (p gorder ns : ℕ) (volFlux : (ℕ → K) → ℕ → K)
    (numFlux : (ℕ → K) → (ℕ → K) → (ℕ → K) → ℕ → K) : Option (Disc K) := do
  let sh ← basisShape t
  let nb ← shapeNumBasis sh.1 p
  let vol ← volRef (K := K) t gt p gorder p
  let fr ← faceRef (K := K) t p
  some { dim := shapeDim sh.1, ns := ns, nb := nb, nq := vol.nq, nface := shapeFaces sh.1,
         nqf := fr.nqf, volBasis := vol.val, volGrad := vol.grad, volWts := vol.wts,
         faceBasis := fr.val, faceWts := fr.wts,
         ptsOrder := fun o iq => (((facePtsOrder sh.1 o fr.nqf)[iq]?).getD 0).toNat,
         volFlux := volFlux, numFlux := numFlux }

variable [DecidableEq K]

/-- The normals of local face `i`, helpers.cpp 398-475: nodes of the left element if it is on the rank,
else of the right element, with the sign of the side. -/
def faceNormals (s : ShapeType) (gorder rank : ℕ) (rm : RankMesh K) (pts : List (K × K × K)) (i : ℕ) :
    Option (List (ℕ → K)) := do
  let row ← rm.rows[i]?
  let src ← normalSource (K := K) rank row.rankL row.rankR (row.elemL, row.faceL) (row.elemR, row.faceR)
  match s with
  | .Quadrilateral => pts.mapM fun pt =>
      (faceNormalQuad src.2 gorder src.1.2 (elemCoords rm src.1.1) pt.1).map fun n d =>
        if d = 0 then n.1 else if d = 1 then n.2 else 0
  | .Hexahedron => pts.mapM fun pt =>
      faceNormalHex src.2 gorder src.1.2 (elemCoords rm src.1.1) (pt.1, pt.2.1)
  | _ => none

/-- Jacobian determinant of element `e` at point `q` of a rule, basis/tools.cpp 43-69. -/
def setupDjac (dim nn : ℕ) (ref : RefData K) (coords : ℕ → ℕ → K) (q : ℕ) : K :=
  (elementJacobian dim nn coords (ref.ggrad q) (fun _ _ => 0) 0 fun _ _ => 0).2.1

/-- Inverse Jacobian of element `e` at point `q` of a rule, basis/tools.cpp 43-69. -/
def setupIjac (dim nn : ℕ) (ref : RefData K) (coords : ℕ → ℕ → K) (q : ℕ) : ℕ → ℕ → K :=
  (elementJacobian dim nn coords (ref.ggrad q) (fun _ _ => 0) 0 fun _ _ => 0).2.2

/-- `Solver::precompute_matrix_helpers`, base.cpp 70-111, on one rank: `compute_inv_mass_matrices`
(helpers.cpp 54-100, rule of order `2 p`, fresh `iMM_elems`), `compute_volume_helpers` (7-52) and
`precompute_normals` (371-500).  `scr`, `MM0`: the scratch memory of each element. -/
def buildGeom (t gt : BasisType) (p gorder rank : ℕ) (rm : RankMesh K) (scr MM0 : ℕ → ℕ → ℕ → K) :
    Option (Geom K) := do
  let sh ← basisShape t
  let nb ← shapeNumBasis sh.1 p
  let mass ← volRef (K := K) t gt p gorder (massRuleOrder p)
  let vol ← volRef (K := K) t gt p gorder p
  let fr ← faceRef (K := K) t p
  let normals ← (List.range rm.numIFacesPart).mapM (faceNormals sh.1 gorder rank rm fr.pts)
  let dim := shapeDim sh.1
  let nn := shapeNodes sh.1 gorder
  some { djac := fun e q => setupDjac dim nn vol (elemCoords rm e) q,
         ijac := fun e q => setupIjac dim nn vol (elemCoords rm e) q,
         iMM := fun e => invMass mass.nq nb mass.wts (setupDjac dim nn mass (elemCoords rm e)) mass.val
           (scr e) (MM0 e) fun _ _ => 0,
         normals := fun i q => (((normals[i]?).getD [])[q]?).getD fun _ => 0 }

/-- `Solver::init_state_from_fcn`, base.cpp 114-226, on one rank: `ic x` is what `call_IC` stores for
the physical point `x` at time 0; `iMM` is `vol_helpers.iMM_elems`.  `rhs0`, `U0`: scratch and `Uc`
on entry. -/
def initState (t gt : BasisType) (p gorder ns : ℕ) (rm : RankMesh K) (iMM : ℕ → ℕ → ℕ → K)
    (ic : (ℕ → K) → ℕ → K) (rhs0 U0 : ℕ → ℕ → ℕ → K) : Option (ℕ → ℕ → ℕ → K) := do
  let sh ← basisShape t
  let gsh ← basisShape gt
  let nb ← shapeNumBasis sh.1 p
  let gnb ← shapeNumBasis gsh.1 gorder
  let ref ← volRef (K := K) t gt p gorder (projRuleOrder p)
  let dim := shapeDim sh.1
  let nn := shapeNodes sh.1 gorder
  some fun e => l2Projection ref.nq nb ns (iMM e) ref.val (setupDjac dim nn ref (elemCoords rm e))
    ref.wts (fun q => ic (cArr dim (refToPhys dim gnb (ref.gval q) (elemCoords rm e)))) (rhs0 e) (U0 e)

end DG
