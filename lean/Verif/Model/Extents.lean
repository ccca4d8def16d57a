import Verif.Model.DeviceRun
import Verif.Model.SetupKernels
import Verif.Model.NormalKernels

/-!
What the program allocates for the data its kernels work on: extents of the views (`Kokkos::resize`,
constructors of views), the sizes of the scratch memory requested for the kernels (`set_scratch_size`), and
the scratch views made inside of them (`member.team_scratch( 1 )`).
-/
namespace DG.Dev

variable {K : Type} {α : Type}

/-- Extents of the views of the time loop; views of rank 3 are given a fourth extent of 1.
`Uc`, `res`: base.cpp 59-63; `Uq`, `gUq` of `get_element_residuals`: 427-432; `Uq_local[i]`, `Uq_ghost[i]`: 512-519
(one view per neighbour); the rest of the face views: 572-596; views of the time steppers: stepper.cpp 19-20, 31-32,
59-68 (the shape of `res`). -/
def viewExtents (d : Disc K) (rm : RankMesh α) : View → ℕ × ℕ × ℕ × ℕ
  | .Uc | .res | .dU | .dU1 | .dU2 | .dU3 | .dU4 | .Uhold => (rm.numElemsPart, d.nb, d.ns, 1)
  | .uqVol => (rm.numElemsPart, d.nq, d.ns, 1)
  | .vgUq => (rm.numElemsPart, d.nq, d.ns, d.dim)
  | .Uq | .FqElem => (rm.numElemsPart, d.nface * d.nqf, d.ns, 1)
  | .UqL | .UqR | .Fq => (rm.numIFacesPart, d.nqf, d.ns, 1)
  | .sendBuf n | .ghostBuf n =>
    if n < rm.nbrs.length then ((rm.nFacesPerNbr[n]?).getD 0, d.nqf, d.ns, 1) else (0, 0, 0, 0)

/-- Extents of the views of a kernel of the setup, per element, for `nq` points: helpers.cpp 66-69 and 108-112
(`resize` before the launch), base.cpp 59 (`Uc`); scratch views: helpers.cpp 19-20, 78-79, basis/tools.cpp 92-93,
base.cpp 178-191, solver/tools.cpp 78.  `slot`: the memory of `parallel_reduce`, one number per thread.
Post-processor: post/main.cpp 58, 102-103 and the scratch views 124-137 (`f` is `u_exact`); the last three views are
not indexed by an element. -/
def setupExtents (nt nn dim nq nb ns : ℕ) : SView → ℕ × ℕ × ℕ
  | .coords => (nn, dim, 1)
  | .x | .xphys => (nq, dim, 1)
  | .jac | .ijac | .jacS => (nq, dim, dim)
  | .djac | .djacS => (nq, 1, 1)
  | .slot => (nt, 1, 1)
  | .vol => (1, 1, 1)
  | .scr => (nq, nb, 1)
  | .MM | .iMM => (nb, nb, 1)
  | .f | .Uq => (nq, ns, 1)
  | .err => (ns, 1, 1)
  | .part | .total | .totVol => (0, 0, 0)
  | .rhs | .Uc => (nb, ns, 1)

/-! ### scratch memory -/

/-- `ScratchMemorySpace::get_shmem_aligned` (Kokkos, external): the pointer is moved up to the next multiple of
the alignment; the memory is handed out if it ends before the end of the memory of the team.  Result: address and
new position of the pointer. (called for the scratch views of solver/helpers.cpp 15-30, 74-82, 410-430 and solver/base.cpp 173-195) -/
def scratchAlloc (align stop iter bytes : ℕ) : Option (ℕ × ℕ) :=
  let a := (iter + align - 1) / align * align
  if a + bytes ≤ stop then some (a, a + bytes) else none

/-- the scratch views of a kernel, made one after the other: their addresses and sizes
(solver/helpers.cpp 15-30, 74-82, 410-430 and solver/base.cpp 173-195) -/
def scratchAllocs (align stop : ℕ) : ℕ → List ℕ → Option (List (ℕ × ℕ))
  | _, [] => some []
  | iter, b :: bs => do
    let x ← scratchAlloc align stop iter b
    let l ← scratchAllocs align stop x.2 bs
    some ((x.1, b) :: l)

/-- `sizeof(rtype)` times the number of entries (`shmem_size` of solver/base.cpp 163-170) -/
def rbytes (n : ℕ) : ℕ := 8 * n
/-- `sizeof(int)` times the number of entries (`shmem_size` of solver/helpers.cpp 380-408) -/
def ibytes (n : ℕ) : ℕ := 4 * n

/-- `Shape::get_quadrature_order`, shape.cpp 647-649, through the pointers of 539-540, 556-557, 576-577 -/
def shapeQuadOrder (s : ShapeType) (order : ℕ) : ℕ :=
  match s with
  | .Segment => segGaussOrder order
  | .Quadrilateral => quadGaussOrder order
  | .Hexahedron => gaussOrder order
  | .Triangle => 0

/-- "iMM_helper": the sizes whose `shmem_size` is requested, base.cpp 76-84; `meshNodes`, `meshDim` are
`mesh.num_nodes_per_elem`, `mesh.dim`; `nb` is `basis.get_num_basis_coeffs()`, `qorder` the order of the rule -/
def massRequest (meshNodes meshDim nb qorder : ℕ) : List ℕ :=
  let nq := (numQuadPoints qorder meshDim 0).2
  [rbytes (meshNodes * meshDim), rbytes (nb * nb), rbytes (nq * nb)]
/-- its scratch views: helpers.cpp 78-79, basis/tools.cpp 92-93; `nb`, `nq` are the extents of `basis_val` -/
def massScratch (meshNodes meshDim nq nb : ℕ) : List ℕ :=
  [rbytes (meshNodes * meshDim), rbytes (nb * nb), rbytes (nq * nb)]

/-- "volume helpers": base.cpp 85 -/
def volumeRequest (meshNodes meshDim : ℕ) : List ℕ := [rbytes (meshNodes * meshDim)]
/-- helpers.cpp 19-20 -/
def volumeScratch (meshNodes meshDim : ℕ) : List ℕ := [rbytes (meshNodes * meshDim)]

/-- "init state": base.cpp 124-131, 164-169 -/
def initRequest (meshNodes meshDim ndims nb ns qorder : ℕ) : List ℕ :=
  let nq := (numQuadPoints qorder ndims 0).2
  [rbytes (meshNodes * meshDim), rbytes (nq * ndims), rbytes (nq * ns), rbytes nq, rbytes (nq * ndims * ndims),
    rbytes (nb * ns)]
/-- base.cpp 178-191, solver/tools.cpp 78 (`nb` is the extent of `basis_val`) -/
def initScratch (meshNodes ndims nq nb ns : ℕ) : List ℕ :=
  [rbytes (meshNodes * ndims), rbytes (nq * ndims), rbytes (nq * ns), rbytes nq, rbytes (nq * ndims * ndims),
    rbytes (nb * ns)]

/-- the error kernel of the post-processor: post/main.cpp 111-115 -/
def errorRequest (meshNodes meshDim ndims ns qorder : ℕ) : List ℕ :=
  let nq := (numQuadPoints qorder ndims 0).2
  [rbytes (meshNodes * meshDim), rbytes (nq * ndims), rbytes (nq * ns), rbytes nq, rbytes (nq * ndims * ndims)]
/-- post/main.cpp 124-137 -/
def errorScratch (meshNodes ndims nq ns : ℕ) : List ℕ :=
  [rbytes (meshNodes * ndims), rbytes (nq * ndims), rbytes (nq * ns), rbytes nq, rbytes (nq * ndims * ndims)]

/-- "normals": helpers.cpp 386-399; `nfn`, `nn` are the numbers of nodes of a face and of an element -/
def normalsRequest (nfn nn meshDim nqf : ℕ) : List ℕ :=
  [ibytes nfn, rbytes (nfn * meshDim), rbytes (nn * meshDim), rbytes (meshDim * (meshDim - 1) * nqf)]
/-- helpers.cpp 423-430 -/
def normalsScratch (nfn nn meshDim nqf : ℕ) : List ℕ :=
  [ibytes nfn, rbytes (nfn * meshDim), rbytes (nn * meshDim), rbytes (meshDim * (meshDim - 1) * nqf)]

end DG.Dev
