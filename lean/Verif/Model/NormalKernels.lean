import Verif.Model.Device
import Verif.Model.Setup

/-!
The kernel "normals" of `precompute_normals` (src/solver/helpers.cpp 404-499) from its second
`team_barrier` on, at the level of threads: `get_normals_on_face_quadrilateral` (src/numerics/basis/shape.cpp
154-204) and `get_normals_on_face_hexahedron` (482-532).

One team per interior face, `nt` threads per team.  A `TeamGemm` (KokkosBatched, external) clears its output
with the entries distributed over the threads, waits at a barrier, and adds the products, entries again
distributed over the threads; `TeamScale` distributes the entries over the threads; neither has a barrier at
its end.  The distribution is `i % nt` (that of `TeamThreadRange` on a GPU).  Everything outside of these two
functions is executed by all threads of the team.

Simplification: face coordinates and basis gradients, complete before the barrier, are constants.
-/
namespace DG.Dev

/-- Memory: `xphys_grad(j, k, ip)` in the scratch memory of the team of a face; `normals(iface, ip, j)`. (helpers.cpp 408-474) -/
inductive NCell where
  | grad (face j k ip : ℕ)
  | normal (face ip j : ℕ)
deriving DecidableEq

variable {K : Type} [Zero K] [One K] [Add K] [Sub K] [Mul K] [Neg K] [Div K] [NatCast K]

/-- the distributed loop of `TeamSet`: `xphys_grad(i / n, i % n, ip) = 0` (linear_algebra.cpp 207, called in shape.cpp 169 and 498) -/
def clearGrad (nt j m n face ip : ℕ) : Code NCell K Unit :=
  Code.forN (m * n) fun i => Code.cond (i % nt = j) (Code.write (.grad face (i / n) (i % n) ip) 0)

/-- the distributed loop of `TeamGemm`: add the products (`X j k ip`, see `gradSum`) (linear_algebra.cpp 207, called in shape.cpp 169 and 498) -/
def addGrad (X : ℕ → ℕ → ℕ → K) (nt j m n face ip : ℕ) : Code NCell K Unit :=
  Code.forN (m * n) fun i => Code.cond (i % nt = j) do
    let old ← Code.read (.grad face (i / n) (i % n) ip)
    Code.write (.grad face (i / n) (i % n) ip) (old + X (i / n) (i % n) ip)

/-- the sum added by the transposed product `coords^T * grads` at point `ip` (linear_algebra.cpp 207) -/
def gradSum (nn : ℕ) (coords : ℕ → ℕ → K) (grads : ℕ → ℕ → ℕ → K) (j k ip : ℕ) : K :=
  loopSum nn fun l => (1 * coords l j) * grads ip l k

/-- every thread of the team stores all normals of the face (shape.cpp 195-198) -/
def normalsQuadCode (sign : K) (np face : ℕ) : Code NCell K Unit :=
  Code.forN np fun ip => do
    let a ← Code.read (.grad face 1 0 ip)
    Code.write (.normal face ip 0) (sign * a)
    let b ← Code.read (.grad face 0 0 ip)
    Code.write (.normal face ip 1) (-1 * sign * b)

/-- lines 521-530 of shape.cpp: every thread stores the cross product (`Math::cross`, entries 0, 1, 2), then
`TeamScale` multiplies the entries by `sign`, each by one thread (shape.cpp 521-530) -/
def normalsHexCode (sign : K) (nt j np face : ℕ) : Code NCell K Unit :=
  Code.forN np fun ip => do
    let a0 ← Code.read (.grad face 0 0 ip)
    let b0 ← Code.read (.grad face 0 1 ip)
    let a1 ← Code.read (.grad face 1 0 ip)
    let b1 ← Code.read (.grad face 1 1 ip)
    let a2 ← Code.read (.grad face 2 0 ip)
    let b2 ← Code.read (.grad face 2 1 ip)
    Code.write (.normal face ip 0) (a1 * b2 - a2 * b1)
    Code.write (.normal face ip 1) (a2 * b0 - a0 * b2)
    Code.write (.normal face ip 2) (a0 * b1 - a1 * b0)
    Code.forN 3 fun i => Code.cond (i % nt = j) do
      let v ← Code.read (.normal face ip i)
      Code.write (.normal face ip i) (sign * v)

/-- The kernel: `np` products with one barrier each, then the normals; `m x n` is the shape of `xphys_grad`
at a point, `X f` the sums of face `f`, `rest f j` what thread `j` does after the products. (helpers.cpp 408-474) -/
def normalsKernel (nt np m n : ℕ) (nf : ℕ) (X : ℕ → ℕ → ℕ → ℕ → K) (rest : ℕ → ℕ → Code NCell K Unit) :
    Kernel NCell K (Fin nf) (Fin nt) where
  nph := np + 1
  code f p j := do
    Code.cond (0 < p) (addGrad (X f) nt j m n f (p - 1))
    Code.cond (p < np) (clearGrad nt j m n f p)
    Code.cond (p = np) (rest f j)

/-- quadrilateral elements: shape.cpp 163-199; `sign f` and `coords f` per face, helpers.cpp 425-457 -/
def quadNormals (nt np nf nn : ℕ) (sign : ℕ → K) (coords : ℕ → ℕ → ℕ → K) (grads : ℕ → ℕ → ℕ → K) :
    Kernel NCell K (Fin nf) (Fin nt) :=
  normalsKernel nt np 2 1 nf (fun f => gradSum nn (coords f) grads) fun f _ => normalsQuadCode (sign f) np f

/-- hexahedra: shape.cpp 491-530 -/
def hexNormals (nt np nf nn : ℕ) (sign : ℕ → K) (coords : ℕ → ℕ → ℕ → K) (grads : ℕ → ℕ → ℕ → K) :
    Kernel NCell K (Fin nf) (Fin nt) :=
  normalsKernel nt np 3 2 nf (fun f => gradSum nn (coords f) grads) fun f j =>
    normalsHexCode (sign f) nt j np f

section launch
variable [DecLit K] [DecidableEq K]

/-- source element, reference face and sign of local face `i`, helpers.cpp 415-443 (`0` if the rank has
neither side: the code prints a message and goes on with uninitialised values) -/
def faceSource (rank : ℕ) (rm : RankMesh K) (i : ℕ) : (ℕ × ℕ) × K :=
  ((rm.rows[i]?).bind fun row =>
    normalSource (K := K) rank row.rankL row.rankR (row.elemL, row.faceL) (row.elemR, row.faceR)).getD ((0, 0), 0)

/-- gradients of the segment basis at point `ip`, `get_face_basis_ref_grad_for_normals`, basis.cpp 306-326 -/
def segGrads (gorder : ℕ) (pts : List (K × K × K)) (ip : ℕ) : List K :=
  ((pts[ip]?).bind fun pt => (pointsOnFaceQuad 0 0 [pt.1]).bind fun st => (st[0]?).bind fun r =>
    gradsLagrangeSeg gorder r.1 (List.replicate (numBasisSeg gorder) 0)).getD []

/-- gradients of the face basis of hexahedra at point `ip`, basis.cpp 327-338 -/
def faceGrads (gorder : ℕ) (pts : List (K × K × K)) (ip : ℕ) : List (K × K) :=
  ((pts[ip]?).bind fun pt => (pointsOnFaceHex 0 0 [(pt.1, pt.2.1)]).bind fun st => (st[0]?).bind fun r =>
    gradsLagrangeQuad gorder r.1 r.2.1 (List.replicate (numBasisQuad gorder) (0, 0))).getD []

/-- The launch of the kernel on a rank, helpers.cpp 384-499: a team of `nt` threads per local interior face, the
coordinates of its nodes from `elem_coords_from_elem_ID`, `get_local_nodes_on_face` and
`extract_node_coordinates` (446-453). -/
def normalsLaunch (s : ShapeType) (gorder rank nt : ℕ) (rm : RankMesh K) (pts : List (K × K × K)) :
    Kernel NCell K (Fin rm.numIFacesPart) (Fin nt) :=
  match s with
  | .Hexahedron => hexNormals nt pts.length rm.numIFacesPart (nodesPerFaceHex gorder)
      (fun i => (faceSource rank rm i).2)
      (fun i => extractNodes (elemCoords rm (faceSource rank rm i).1.1)
        ((faceNodesHex (faceSource rank rm i).1.2 gorder (List.replicate (nodesPerFaceHex gorder) 0)).getD []))
      fun ip l k => if k = 0 then (((faceGrads gorder pts ip)[l]?).getD (0, 0)).1
        else (((faceGrads gorder pts ip)[l]?).getD (0, 0)).2
  | _ => quadNormals nt pts.length rm.numIFacesPart (nodesPerFaceQuad gorder)
      (fun i => (faceSource rank rm i).2)
      (fun i => extractNodes (elemCoords rm (faceSource rank rm i).1.1)
        ((faceNodesQuad (faceSource rank rm i).1.2 gorder (List.replicate (nodesPerFaceQuad gorder) 0)).getD []))
      fun ip l _ => get0 (segGrads gorder pts ip) l

end launch

end DG.Dev
