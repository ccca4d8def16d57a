import Verif.Model.GaussTables
import Verif.Model.Basis

/-!
Model of the quadrature rules: `src/numerics/nodes.cpp:97-502`, `src/numerics/quadrature/*.cpp`.

Simplifications: `rtype` is any type `K` with the operations and a meaning of decimal literals (in a
field: the tabulated constants exactly as printed in the source); a rank-2 point view is a list of its rows.  Writes are bounds-checked (`none` =
out-of-bounds write).
-/
namespace DG

/-- what a decimal literal of the source means in `K`: the literal with the digits `n` and `k` of them behind the
point (the constants of nodes.cpp:97-502) -/
class DecLit (K : Type) where
  ofDec : ℤ → ℕ → K

/-- exact numbers: the literal as it is printed (the constants of nodes.cpp:97-502) -/
instance {K : Type} [Field K] : DecLit K := ⟨fun n k => (n : K) / 10 ^ k⟩

variable {K : Type} [Zero K] [One K] [Add K] [Sub K] [Mul K] [Neg K] [Div K] [NatCast K] [DecLit K]

/-- a tabulated constant (nodes.cpp:97-502) -/
def gaussVal (n : ℤ) : K := DecLit.ofDec n gaussScale

/-- the assignments of one case of a table (nodes.cpp:97-502) -/
def applyWrites (ws : List (ℕ × ℤ)) (view : List K) : Option (List K) :=
  ws.foldlM (fun v w => setB v w.1 (gaussVal w.2)) view

/-- `Nodes::get_gauss_legendre_segment_nodes`, nodes.cpp:97-502; an order without case writes
nothing. -/
def glNodes (order : ℕ) (view : List K) : Option (List K) :=
  match glNodeWrites order with
  | some ws => applyWrites ws view
  | none => some view

/-- `SegmentQuadrature::get_segment_weights_gl`, segment.cpp:7-412. -/
def glWeights (order : ℕ) (view : List K) : Option (List K) :=
  match glWeightWrites order with
  | some ws => applyWrites ws view
  | none => some view

/-- `SegmentQuadrature::get_quadrature_gauss_legendre`, segment.cpp:414-423. -/
def segmentGL (order : ℕ) (pts wts : List K) : Option (List K × List K) := do
  let pts ← glNodes order pts
  let wts ← glWeights order wts
  some (pts, wts)

/-- `QuadrilateralQuadrature::get_quadrature_gauss_legendre`, quadrilateral.cpp:7-34.  The 1D views
are fresh (zero). -/
def quadGL (order n : ℕ) (pts : List (K × K)) (wts : List K) : Option (List (K × K) × List K) := do
  let x ← glNodes order (List.replicate n (0 : K))
  let w ← glWeights order (List.replicate n (0 : K))
  let pts ← (List.range n).foldlM (fun v j =>
    (List.range n).foldlM (fun v i => setB v (j * n + i) (get0 x i, get0 x j)) v) pts
  let wts ← (List.range n).foldlM (fun v j =>
    (List.range n).foldlM (fun v i => setB v (j * n + i) (get0 w i * get0 w j)) v) wts
  some (pts, wts)

/-- `HexahedronQuadrature::get_quadrature_gauss_legendre`, hexahedron.cpp:6-35. -/
def hexGL (order n : ℕ) (pts : List (K × K × K)) (wts : List K) :
    Option (List (K × K × K) × List K) := do
  let x ← glNodes order (List.replicate n (0 : K))
  let w ← glWeights order (List.replicate n (0 : K))
  let pts ← (List.range n).foldlM (fun v k =>
    (List.range n).foldlM (fun v j =>
      (List.range n).foldlM (fun v i =>
        setB v (k * n * n + j * n + i) (get0 x i, get0 x j, get0 x k)) v) v) pts
  let wts ← (List.range n).foldlM (fun v k =>
    (List.range n).foldlM (fun v j =>
      (List.range n).foldlM (fun v i =>
        setB v (k * n * n + j * n + i) (get0 w i * get0 w j * get0 w k)) v) v) wts
  some (pts, wts)

/-- `QuadratureTools::get_gausslegendre_quadrature_order`, quadrature/tools.cpp:7-17. -/
def gaussOrder (order : ℕ) : ℕ := 2 * (order + 1) + 1
/-- `SegmentQuadrature::get_gausslegendre_quadrature_order`, segment.cpp:425-427. -/
def segGaussOrder (order : ℕ) : ℕ := 2 * order + 1
/-- `QuadrilateralQuadrature::get_gausslegendre_quadrature_order`, quadrilateral.cpp:36-41. -/
def quadGaussOrder (order : ℕ) : ℕ := segGaussOrder order + 2

/-- `QuadratureTools::get_number_of_quadrature_points`, quadrature/tools.cpp:20-24: `(nq_1d, nq)`;
`nq0` is the value of `nq_1d` on entry. -/
def numQuadPoints (order ndims nq0 : ℕ) : ℕ × ℕ :=
  let nq1 := if (order + 2) % 2 = 0 then (order + 2) / 2 else nq0
  let nq1 := if (order + 1) % 2 = 0 then (order + 1) / 2 else nq1
  (nq1, nq1 ^ ndims)

end DG
