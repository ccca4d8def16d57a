import Verif.Model.Arr
import Mathlib.Algebra.Field.Defs
import Mathlib.Data.Nat.Cast.Defs

/-!
Model of the bases: `src/numerics/basis/tools.cpp`, `src/numerics/basis/basis.cpp` and the
equidistant node generators of `src/numerics/nodes.cpp`.

Simplifications, valid for the whole file: `rtype` (double) is any type `K` with
the operations of the code; the outer loop over the quadrature points is not modelled, a routine is modelled by what
it does to the row of one point (rows are independent; the repetition of the whole computation
once per point in basis.cpp:68-71, 83-86, 106-109, 121-124 rewrites the same values);
array reads whose index is bounded by the extent of the array they read are total (`get0`), writes
are bounds-checked (`none` = out-of-bounds write).
-/
namespace DG

variable {K : Type} [Zero K] [One K] [Add K] [Sub K] [Mul K] [Neg K] [Div K] [NatCast K]

/-- read of an array entry (in bounds wherever it is used in the model) (the reads of the loops of basis/tools.cpp 130-464) -/
def get0 (a : List K) (i : ℕ) : K := (a[i]?).getD 0

/-- `equidistant_nodes_1D_range`, basis/tools.cpp:9-25.  `view` is the output on entry.  With at
most one node entry 0 is set to 0 (an empty view is then accessed out of bounds: `none`); otherwise
the view is resized (the code keeps old entries, all are overwritten) and filled. -/
def equidistant1D (start stop : K) (nnodes : ℕ) (view : List K) : Option (List K) :=
  if nnodes ≤ 1 then setB view 0 0
  else
    let view := if view.length ≠ nnodes then List.replicate nnodes 0 else view
    let dx := (stop - start) / ((nnodes : K) - 1)
    (List.range nnodes).foldlM (fun v (i : ℕ) => setB v i (start + (i : K) * dx)) view

/-- `Nodes::get_equidistant_nodes_segment`, nodes.cpp:21-36 (running sum of `dx`). -/
def equidistantSegment (order : ℕ) (xref : List K) : Option (List K) :=
  if order = 0 then some [0]
  else
    let dx : K := 2 / (order : K)
    ((List.range (order + 1)).foldlM
      (fun (st : K × List K) i => (setB st.2 i st.1).map fun v => (st.1 + dx, v))
      (-1, xref)).map Prod.snd

/-- `Nodes::get_equidistant_nodes_quadrilateral`, nodes.cpp:48-61; one row of `xref` is a pair. -/
def equidistantQuad (order : ℕ) (xref : List (K × K)) : Option (List (K × K)) := do
  let n := order + 1
  let x ← equidistantSegment order (List.replicate n (0 : K))
  (List.range n).foldlM (fun v j =>
    (List.range n).foldlM (fun v i => setB v (j * n + i) (get0 x i, get0 x j)) v) xref

/-- `Nodes::get_equidistant_nodes_hexahedron`, nodes.cpp:75-94; one row of `xref` is a triple. -/
def equidistantHex (order : ℕ) (xref : List (K × K × K)) : Option (List (K × K × K)) := do
  let n := order + 1
  let x ← equidistantSegment order (List.replicate n (0 : K))
  (List.range n).foldlM (fun v k =>
    (List.range n).foldlM (fun v j =>
      (List.range n).foldlM (fun v i =>
        setB v (k * n * n + j * n + i) (get0 x i, get0 x j, get0 x k)) v) v) xref

/-- `get_lagrange_basis_val_1D`, basis/tools.cpp:115-127. -/
def lagrangeVal1D (x : K) (xn : List K) (phi : List K) : Option (List K) :=
  (List.range xn.length).foldlM (fun phi i =>
    (setB phi i 1).bind fun phi =>
      (List.range xn.length).foldlM (fun phi j =>
        if i = j then some phi
        else setB phi i (get0 phi i * ((x - get0 xn j) / (get0 xn i - get0 xn j)))) phi) phi

/-- The inner product of `get_lagrange_basis_grad_1D`, basis/tools.cpp:139-144. -/
def lagrangeGradProd (x : K) (xn : List K) (i j : ℕ) : K :=
  (List.range xn.length).foldl (fun prod k =>
    if i = k then prod
    else if j = k then prod * (1 / (get0 xn i - get0 xn k))
    else prod * ((x - get0 xn k) / (get0 xn i - get0 xn k))) 1

/-- `get_lagrange_basis_grad_1D`, basis/tools.cpp:129-149. -/
def lagrangeGrad1D (x : K) (xn : List K) (gphi : List K) : Option (List K) :=
  (List.range xn.length).foldlM (fun g i =>
    (setB g i 0).bind fun g =>
      (List.range xn.length).foldlM (fun g j =>
        if i = j then some g
        else setB g i (get0 g i + lagrangeGradProd x xn i j)) g) gphi

/-- `get_legendre_basis_val_1D`, basis/tools.cpp:298-331.  Orders above 7 print a message and set
only the entries 0..6. -/
def legendreVal1D (x : K) (p : ℕ) (phi : List K) : Option (List K) := do
  let phi ← setB phi 0 1
  let phi ← if 1 ≤ p then setB phi 1 x else some phi
  let phi ← if 2 ≤ p then setB phi 2 (1/2 * (3 * x * x - 1)) else some phi
  let phi ← if 3 ≤ p then setB phi 3 (1/2 * (5 * x * x * x - 3 * x)) else some phi
  let phi ← if 4 ≤ p then setB phi 4 (1/8 * (35 * x * x * x * x - 30 * x * x + 3)) else some phi
  let phi ← if 5 ≤ p then
    setB phi 5 (1/8 * (63 * x * x * x * x * x - 70 * x * x * x + 15 * x)) else some phi
  let phi ← if 6 ≤ p then
    setB phi 6 (1/16 * (231 * x * x * x * x * x * x - 315 * x * x * x * x + 105 * x * x - 5))
    else some phi
  if p = 7 then
    setB phi 7 (1/16 * (429 * x * x * x * x * x * x * x - 693 * x * x * x * x * x
      + 315 * x * x * x - 35 * x))
  else some phi

/-- `get_legendre_basis_grad_1D`, basis/tools.cpp:333-366. -/
def legendreGrad1D (x : K) (p : ℕ) (g : List K) : Option (List K) := do
  let g ← setB g 0 0
  let g ← if 1 ≤ p then setB g 1 1 else some g
  let g ← if 2 ≤ p then setB g 2 (3 * x) else some g
  let g ← if 3 ≤ p then setB g 3 (1/2 * (15 * x * x - 3)) else some g
  let g ← if 4 ≤ p then setB g 4 (1/8 * (35 * 4 * x * x * x - 60 * x)) else some g
  let g ← if 5 ≤ p then setB g 5 (1/8 * (63 * 5 * x * x * x * x - 210 * x * x + 15)) else some g
  let g ← if 6 ≤ p then
    setB g 6 (1/16 * (231 * 6 * x * x * x * x * x - 315 * 4 * x * x * x + 210 * x)) else some g
  if p = 7 then
    setB g 7 (1/16 * (429 * 7 * x * x * x * x * x * x - 693 * 5 * x * x * x * x
      + 315 * 3 * x * x - 35))
  else some g

/-- The loops of basis/tools.cpp:172-178 (and 387-393): one row of the 2D tensor basis. -/
def tensorVal2D (p : ℕ) (vx vy : List K) (row : List K) : Option (List K) :=
  (List.range (p + 1)).foldlM (fun row j =>
    (List.range (p + 1)).foldlM (fun row i =>
      setB row (j * (p + 1) + i) (get0 vx i * get0 vy j)) row) row

/-- The loops of basis/tools.cpp:209-216 (and 424-431): one row of 2D gradients. -/
def tensorGrad2D (p : ℕ) (vx vy gx gy : List K) (row : List (K × K)) : Option (List (K × K)) :=
  (List.range (p + 1)).foldlM (fun row j =>
    (List.range (p + 1)).foldlM (fun row i =>
      setB row (j * (p + 1) + i) (get0 gx i * get0 vy j, get0 vx i * get0 gy j)) row) row

/-- The loops of basis/tools.cpp:240-249 (and 453-462): one row of the 3D tensor basis. -/
def tensorVal3D (p : ℕ) (vx vy vz : List K) (row : List K) : Option (List K) :=
  (List.range (p + 1)).foldlM (fun row k =>
    (List.range (p + 1)).foldlM (fun row j =>
      (List.range (p + 1)).foldlM (fun row i =>
        setB row (k * (p + 1) * (p + 1) + j * (p + 1) + i)
          (get0 vx i * get0 vy j * get0 vz k)) row) row) row

/-- The loops of basis/tools.cpp:279-293 (and 493-508): one row of 3D gradients. -/
def tensorGrad3D (p : ℕ) (vx vy vz gx gy gz : List K) (row : List (K × K × K)) :
    Option (List (K × K × K)) :=
  (List.range (p + 1)).foldlM (fun row k =>
    (List.range (p + 1)).foldlM (fun row j =>
      (List.range (p + 1)).foldlM (fun row i =>
        setB row (k * (p + 1) * (p + 1) + j * (p + 1) + i)
          (get0 gx i * get0 vy j * get0 vz k,
           get0 vx i * get0 gy j * get0 vz k,
           get0 vx i * get0 vy j * get0 gz k)) row) row) row

/-- `get_lagrange_basis_val_2D`, basis/tools.cpp:152-179 (one point `(x, y)`). -/
def lagrangeVal2D (x y : K) (xn : List K) (p : ℕ) (row : List K) : Option (List K) := do
  let vx ← lagrangeVal1D x xn (List.replicate (p + 1) 0)
  let vy ← lagrangeVal1D y xn (List.replicate (p + 1) 0)
  tensorVal2D p vx vy row

/-- `get_lagrange_basis_grad_2D`, basis/tools.cpp:181-217. -/
def lagrangeGrad2D (x y : K) (xn : List K) (p : ℕ) (row : List (K × K)) :
    Option (List (K × K)) := do
  let vx ← lagrangeVal1D x xn (List.replicate (p + 1) 0)
  let vy ← lagrangeVal1D y xn (List.replicate (p + 1) 0)
  let gx ← lagrangeGrad1D x xn (List.replicate (p + 1) 0)
  let gy ← lagrangeGrad1D y xn (List.replicate (p + 1) 0)
  tensorGrad2D p vx vy gx gy row

/-- `get_lagrange_basis_val_3D`, basis/tools.cpp:219-250. -/
def lagrangeVal3D (x y z : K) (xn : List K) (p : ℕ) (row : List K) : Option (List K) := do
  let vx ← lagrangeVal1D x xn (List.replicate (p + 1) 0)
  let vy ← lagrangeVal1D y xn (List.replicate (p + 1) 0)
  let vz ← lagrangeVal1D z xn (List.replicate (p + 1) 0)
  tensorVal3D p vx vy vz row

/-- `get_lagrange_basis_grad_3D`, basis/tools.cpp:252-295. -/
def lagrangeGrad3D (x y z : K) (xn : List K) (p : ℕ) (row : List (K × K × K)) :
    Option (List (K × K × K)) := do
  let vx ← lagrangeVal1D x xn (List.replicate (p + 1) 0)
  let vy ← lagrangeVal1D y xn (List.replicate (p + 1) 0)
  let vz ← lagrangeVal1D z xn (List.replicate (p + 1) 0)
  let gx ← lagrangeGrad1D x xn (List.replicate (p + 1) 0)
  let gy ← lagrangeGrad1D y xn (List.replicate (p + 1) 0)
  let gz ← lagrangeGrad1D z xn (List.replicate (p + 1) 0)
  tensorGrad3D p vx vy vz gx gy gz row

/-- `get_legendre_basis_val_2D`, basis/tools.cpp:368-394. -/
def legendreVal2D (x y : K) (p : ℕ) (row : List K) : Option (List K) := do
  let vx ← legendreVal1D x p (List.replicate (p + 1) 0)
  let vy ← legendreVal1D y p (List.replicate (p + 1) 0)
  tensorVal2D p vx vy row

/-- `get_legendre_basis_grad_2D`, basis/tools.cpp:396-432. -/
def legendreGrad2D (x y : K) (p : ℕ) (row : List (K × K)) : Option (List (K × K)) := do
  let vx ← legendreVal1D x p (List.replicate (p + 1) 0)
  let vy ← legendreVal1D y p (List.replicate (p + 1) 0)
  let gx ← legendreGrad1D x p (List.replicate (p + 1) 0)
  let gy ← legendreGrad1D y p (List.replicate (p + 1) 0)
  tensorGrad2D p vx vy gx gy row

/-- `get_legendre_basis_val_3D`, basis/tools.cpp:434-464. -/
def legendreVal3D (x y z : K) (p : ℕ) (row : List K) : Option (List K) := do
  let vx ← legendreVal1D x p (List.replicate (p + 1) 0)
  let vy ← legendreVal1D y p (List.replicate (p + 1) 0)
  let vz ← legendreVal1D z p (List.replicate (p + 1) 0)
  tensorVal3D p vx vy vz row

/-- `get_legendre_basis_grad_3D`, basis/tools.cpp:466-508. -/
def legendreGrad3D (x y z : K) (p : ℕ) (row : List (K × K × K)) : Option (List (K × K × K)) := do
  let vx ← legendreVal1D x p (List.replicate (p + 1) 0)
  let vy ← legendreVal1D y p (List.replicate (p + 1) 0)
  let vz ← legendreVal1D z p (List.replicate (p + 1) 0)
  let gx ← legendreGrad1D x p (List.replicate (p + 1) 0)
  let gy ← legendreGrad1D y p (List.replicate (p + 1) 0)
  let gz ← legendreGrad1D z p (List.replicate (p + 1) 0)
  tensorGrad3D p vx vy vz gx gy gz row

/-! ### `Basis::get_values` / `Basis::get_grads` (basis.cpp) -/

/-- 1D nodes used by the Lagrange bases, basis.cpp:20-21 etc. with the node generator fixed in the
constructor (basis.cpp:240). -/
def basisNodes (order : ℕ) : Option (List K) :=
  equidistant1D (-1) 1 (order + 1) (List.replicate (order + 1) (0 : K))

/-- `get_values_lagrangeseg`, basis.cpp:9-29; order 0 fills with 1. -/
def valuesLagrangeSeg (order : ℕ) (x : K) (row : List K) : Option (List K) :=
  if order = 0 then some (List.replicate row.length 1)
  else (basisNodes order).bind fun xn => lagrangeVal1D x xn row
/-- `get_grads_lagrangeseg`, basis.cpp:31-46; order 0 writes nothing. -/
def gradsLagrangeSeg (order : ℕ) (x : K) (row : List K) : Option (List K) :=
  if 0 < order then (basisNodes order).bind fun xn => lagrangeGrad1D x xn row else some row
/-- `get_values_lagrangequad`, basis.cpp:51-71. -/
def valuesLagrangeQuad (order : ℕ) (x y : K) (row : List K) : Option (List K) :=
  if order = 0 then some (List.replicate row.length 1)
  else (basisNodes order).bind fun xn => lagrangeVal2D x y xn order row
/-- `get_grads_lagrangequad`, basis.cpp:73-88. -/
def gradsLagrangeQuad (order : ℕ) (x y : K) (row : List (K × K)) : Option (List (K × K)) :=
  if 0 < order then (basisNodes order).bind fun xn => lagrangeGrad2D x y xn order row else some row
/-- `get_values_lagrangehex`, basis.cpp:94-112. -/
def valuesLagrangeHex (order : ℕ) (x y z : K) (row : List K) : Option (List K) :=
  if order = 0 then some (List.replicate row.length 1)
  else (basisNodes order).bind fun xn => lagrangeVal3D x y z xn order row
/-- `get_grads_lagrangehex`, basis.cpp:114-129. -/
def gradsLagrangeHex (order : ℕ) (x y z : K) (row : List (K × K × K)) :
    Option (List (K × K × K)) :=
  if 0 < order then (basisNodes order).bind fun xn => lagrangeGrad3D x y z xn order row
  else some row
/-- `get_values_legendreseg`, basis.cpp:134-151. -/
def valuesLegendreSeg (order : ℕ) (x : K) (row : List K) : Option (List K) :=
  if order = 0 then some (List.replicate row.length 1) else legendreVal1D x order row
/-- `get_grads_legendreseg`, basis.cpp:153-166. -/
def gradsLegendreSeg (order : ℕ) (x : K) (row : List K) : Option (List K) :=
  if 0 < order then legendreGrad1D x order row else some row
/-- `get_values_legendrequad`, basis.cpp:172-186. -/
def valuesLegendreQuad (order : ℕ) (x y : K) (row : List K) : Option (List K) :=
  if order = 0 then some (List.replicate row.length 1) else legendreVal2D x y order row
/-- `get_grads_legendrequad`, basis.cpp:189-200. -/
def gradsLegendreQuad (order : ℕ) (x y : K) (row : List (K × K)) : Option (List (K × K)) :=
  if 0 < order then legendreGrad2D x y order row else some row
/-- `get_values_legendrehex`, basis.cpp:205-219. -/
def valuesLegendreHex (order : ℕ) (x y z : K) (row : List K) : Option (List K) :=
  if order = 0 then some (List.replicate row.length 1) else legendreVal3D x y z order row
/-- `get_grads_legendrehex`, basis.cpp:222-233. -/
def gradsLegendreHex (order : ℕ) (x y z : K) (row : List (K × K × K)) :
    Option (List (K × K × K)) :=
  if 0 < order then legendreGrad3D x y z order row else some row

end DG
