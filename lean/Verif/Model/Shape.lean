import Verif.Model.Arr
import Mathlib.Data.Int.Init
import Mathlib.Data.Nat.Sqrt
import Mathlib.Algebra.Field.Defs

/-!
Model of the shape routines of `src/numerics/basis/shape.cpp`: point counts, reordering of face
points for the orientations of a face, placement of face points on the faces of the reference
element, local node lists of faces.

Simplifications, valid for the whole file: `rtype` (double) is any type `K` with
the operations of the code; `int` is `ℤ` and `unsigned` is `ℕ` (no overflow); a `Kokkos::View`
is a `List` with bounds-checked writes.
-/
namespace DG

/-! ### Counts -/

/-- `get_num_basis_coeff_segment`, shape.cpp:9-11. -/
def numBasisSeg (p : ℕ) : ℕ := p + 1
/-- `get_num_basis_coeff_quadrilateral`, shape.cpp:28-30. -/
def numBasisQuad (p : ℕ) : ℕ := (p + 1) * (p + 1)
/-- `get_num_basis_coeff_hexahedron`, shape.cpp:210-212. -/
def numBasisHex (p : ℕ) : ℕ := (p + 1) * (p + 1) * (p + 1)
/-- `get_num_nodes_per_face_quadrilateral`, shape.cpp:33-35. -/
def nodesPerFaceQuad (g : ℕ) : ℕ := g + 1
/-- `get_num_nodes_per_face_hexahedron`, shape.cpp:215-217. -/
def nodesPerFaceHex (g : ℕ) : ℕ := (g + 1) * (g + 1)
/-- `get_num_nodes_per_elem_quadrilateral`, shape.cpp:38-40. -/
def nodesPerElemQuad (g : ℕ) : ℕ := (g + 1) * (g + 1)
/-- `get_num_nodes_per_elem_hexahedron`, shape.cpp:220-222. -/
def nodesPerElemHex (g : ℕ) : ℕ := (g + 1) * (g + 1) * (g + 1)

/-! ### Reordering of the points of a face -/

/-- `get_face_pts_order_wrt_orient0_quadrilateral`, shape.cpp:43-66.  `a` is the output view on
entry; `none` = the size assertion (line 46) fails; an unknown orientation only prints a message
(line 62-64) and leaves the view as it was. -/
def ptsOrderQuad (orient : ℕ) (npts : ℕ) (a : List ℤ) : Option (List ℤ) :=
  if a.length = npts then
    match orient with
    | 0 => (List.range npts).foldlM (fun a i => setB a i (i : ℤ)) a
    | 1 => (List.range npts).foldlM (fun a i => setB a i ((npts : ℤ) - 1 - i)) a
    | _ => some a
  else none

/-- The loop shape of cases 1, 3, 4 and 6 of the hexahedron ordering (shape.cpp:343-349, 359-369,
371-381, 397-407): `curr = c0; for i < npts { a(i) = curr; curr = step(curr); }`. -/
def fillRun (npts : ℕ) (step : ℤ → ℤ) (c0 : ℤ) (a : List ℤ) : Option (List ℤ) :=
  ((List.range npts).foldlM
    (fun (st : ℤ × List ℤ) i => (setB st.2 i st.1).map fun a => (step st.1, a)) (c0, a)).map
    Prod.snd

/-- The loop shape of cases 5 and 7 (shape.cpp:383-395, 409-421):
`curr = c0; k = 0; for i < n { for j < n { a(k) = curr; curr += inner; k++; } curr += outer; }`. -/
def fillRows (n : ℕ) (inner outer c0 : ℤ) (a : List ℤ) : Option (List ℤ) :=
  ((List.range n).foldlM
    (fun (st : ℤ × ℕ × List ℤ) _ =>
      ((List.range n).foldlM
        (fun (st : ℤ × ℕ × List ℤ) _ =>
          (setB st.2.2 st.2.1 st.1).map fun a => (st.1 + inner, st.2.1 + 1, a)) st).map
        fun st => (st.1 + outer, st.2))
    (c0, 0, a)).map fun st => st.2.2

/-- `get_face_pts_order_wrt_orient0_hexahedron`, shape.cpp:327-428.  `none` = one of the
assertions of lines 330-333 fails.  `n1D` is the integer part of the square root (the code
truncates the floating-point square root; taken to be exact). -/
def ptsOrderHex (orient : ℕ) (npts : ℕ) (a : List ℤ) : Option (List ℤ) :=
  let n1D := Nat.sqrt npts
  if a.length = npts ∧ 0 < npts ∧ n1D * n1D = npts then
    let n : ℤ := n1D
    let np : ℤ := npts
    let nptsp1 : ℤ := np + 1
    match orient with
    | 0 => (List.range npts).foldlM (fun a i => setB a i (i : ℤ)) a
    | 1 => fillRun npts (fun curr => Int.tmod (curr + n) nptsp1) (n - 1) a
    | 2 => (List.range npts).foldlM (fun a i => setB a i (np - 1 - i)) a
    | 3 => fillRun npts
        (fun curr => if curr - n < 0 then curr - n + nptsp1 else curr - n) (np - n) a
    | 4 => fillRun npts
        (fun curr => if curr + n ≥ np then curr + n - (np - 1) else curr + n) 0 a
    | 5 => fillRows n1D (-1) (2 * n) (n - 1) a
    | 6 => fillRun npts
        (fun curr => if curr - n < 0 then curr - n + (np - 1) else curr - n) (np - 1) a
    | 7 => fillRows n1D 1 (-(2 * n)) (np - n) a
    | _ => some a
  else none

/-! ### Face points in the reference element -/

section Points
variable {K : Type} [Zero K] [One K] [Add K] [Sub K] [Mul K] [Neg K] [Div K] [NatCast K]

/-- Reference corners of the quadrilateral, shape.cpp:73-74. -/
def cornerQuad (i : ℕ) : K × K :=
  ((([-1, 1, -1, 1] : List K)[i]?).getD 0, (([-1, -1, 1, 1] : List K)[i]?).getD 0)

/-- Corners of a face of the quadrilateral, shape.cpp:78-101; `none` = the exception of line 100. -/
def faceCornersQuad (face : ℕ) : Option (ℕ × ℕ) :=
  match face with
  | 0 => some (0, 1)
  | 1 => some (1, 3)
  | 2 => some (3, 2)
  | 3 => some (2, 0)
  | _ => none

/-- `get_points_on_face_quadrilateral`, shape.cpp:68-121; `none` = exception for a bad face. -/
def pointsOnFaceQuad (face orient : ℕ) (pts : List K) : Option (List (K × K)) :=
  (faceCornersQuad face).map fun node =>
    let node := if orient = 1 then (node.2, node.1) else node
    let p0 : K × K := cornerQuad node.1
    let p1 : K × K := cornerQuad node.2
    pts.map fun x =>
      let b1 := (x + 1) / 2
      let b0 := 1 - b1
      (b0 * p0.1 + b1 * p1.1, b0 * p0.2 + b1 * p1.2)

/-- Reference corners of the hexahedron, shape.cpp:229-231. -/
def cornerHex (i : ℕ) : K × K × K :=
  ((([-1, 1, -1, 1, -1, 1, -1, 1] : List K)[i]?).getD 0,
   (([-1, -1, 1, 1, -1, -1, 1, 1] : List K)[i]?).getD 0,
   (([-1, -1, -1, -1, 1, 1, 1, 1] : List K)[i]?).getD 0)

/-- `node_temp` of shape.cpp:235-278; `none` = the exception of line 277. -/
def faceCornersHex (face : ℕ) : Option (List ℕ) :=
  match face with
  | 0 => some [0, 2, 3, 1]
  | 1 => some [0, 1, 5, 4]
  | 2 => some [1, 3, 7, 5]
  | 3 => some [3, 2, 6, 7]
  | 4 => some [2, 0, 4, 6]
  | 5 => some [4, 5, 7, 6]
  | _ => none

/-- The orientation of the corner list, shape.cpp:280-290: cyclic shift by `orient % 4`, then
exchange of entries 1 and 3 when `orient / 4 ≥ 1`. -/
def orientCorners (orient : ℕ) (t : List ℕ) : List ℕ :=
  let node := (List.range 4).map fun j => (t[(j + orient % 4) % 4]?).getD 0
  if orient / 4 ≥ 1 then
    let n1 := (node[1]?).getD 0
    let n3 := (node[3]?).getD 0
    (node.set 1 n3).set 3 n1
  else node

/-- `get_points_on_face_hexahedron`, shape.cpp:224-324; `none` = exception for a bad face. -/
def pointsOnFaceHex (face orient : ℕ) (pts : List (K × K)) : Option (List (K × K × K)) :=
  (faceCornersHex face).map fun t =>
    let node := orientCorners orient t
    pts.map fun p =>
      let xb := (p.1 + 1) / 2
      let yb := (p.2 + 1) / 2
      let b : List K := [(1 - xb) * (1 - yb), xb * (1 - yb), xb * yb, (1 - xb) * yb]
      (List.range 4).foldl (fun (acc : K × K × K) j =>
        let c : K × K × K := cornerHex ((node[j]?).getD 0)
        let bj := (b[j]?).getD 0
        (acc.1 + bj * c.1, acc.2.1 + bj * c.2.1, acc.2.2 + bj * c.2.2)) (0, 0, 0)

end Points

/-! ### Local node lists of faces -/

/-- First node and stride of a face of the quadrilateral, shape.cpp:127-147 (faces other than
0..3 keep the initial zeros of line 127). -/
def faceStrideQuad (face : ℕ) (g : ℤ) : ℤ × ℤ :=
  match face with
  | 0 => (0, 1)
  | 1 => (g, g + 1)
  | 2 => (g * (g + 2), -1)
  | 3 => (g * (g + 1), -g - 1)
  | _ => (0, 0)

/-- `get_local_nodes_on_face_quadrilateral`, shape.cpp:124-152.  `a` is the output view on entry;
`none` = write outside of it. -/
def faceNodesQuad (face g : ℕ) (a : List ℤ) : Option (List ℤ) :=
  let s := faceStrideQuad face g
  (List.range (g + 1)).foldlM (fun a i => setB a i (s.1 + i * s.2)) a

/-- First node and strides of a face of the hexahedron, shape.cpp:434-472. -/
def faceStrideHex (face : ℕ) (g : ℤ) : ℤ × ℤ × ℤ :=
  match face with
  | 0 => (0, g + 1, 1)
  | 1 => (0, 1, (g + 1) * (g + 1))
  | 2 => (g, g + 1, (g + 1) * (g + 1))
  | 3 => ((g + 1) * (g + 1) - 1, -1, (g + 1) * (g + 1))
  | 4 => (g * (g + 1), -(g + 1), (g + 1) * (g + 1))
  | 5 => (g * (g + 1) * (g + 1), 1, g + 1)
  | _ => (0, 0, 0)

/-- `get_local_nodes_on_face_hexahedron`, shape.cpp:430-480. -/
def faceNodesHex (face g : ℕ) (a : List ℤ) : Option (List ℤ) :=
  let s := faceStrideHex face g
  ((List.range (g + 1)).foldlM
    (fun (st : ℕ × List ℤ) (j : ℕ) =>
      (List.range (g + 1)).foldlM
        (fun (st : ℕ × List ℤ) (i : ℕ) => pushB st (s.1 + i * s.2.1 + j * s.2.2)) st)
    (0, a)).map Prod.snd

end DG
