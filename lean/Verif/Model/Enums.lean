import Mathlib.Data.List.Basic
import Verif.Model.Physics
import Verif.Model.Shape
import Verif.Model.Quadrature

/-!
Model of the configuration enumerations (`src/common/enums.h`), of the objects built from them
(`src/solver/base.cpp:21-67`, `src/physics/base/base.cpp:17-32`, `src/numerics/timestepping/stepper.h`)
and of the size tables of `src/numerics/numerics_data.cpp`.
-/
namespace DG

/-- A configuration enumeration: the identifiers of its members in declaration order (the
integer value of a member is its position) and its array of names. (common/enums.h 11-54) -/
structure EnumTable where
  /-- members of the `enum`, in order -/
  ids : List String
  /-- `get_enum_to_string_array<T>()` -/
  names : List String

/-- `enum_to_string<T>`, enums.h:19-25; `none` = out-of-bounds access. -/
def enumToString (T : EnumTable) (v : ℕ) : Option String := T.names[v]?

/-- `enum_from_string<T>`, enums.h:31-54: `std::find` over the names; `none` = InputException. -/
def enumFromString (T : EnumTable) (s : String) : Option ℕ :=
  let i := T.names.findIdx (· == s)
  if i = T.names.length then none else some i

/-- enums.h:56-67 -/
def physicsTypeTable : EnumTable := ⟨["Euler", "NavierStokes"], ["Euler", "NavierStokes"]⟩
/-- enums.h:69-79 -/
def stepperTypeTable : EnumTable := ⟨["ForwardEuler", "RungeKutta4"], ["FE", "RK4"]⟩
/-- enums.h:82-92 -/
def numericalFluxTable : EnumTable := ⟨["LaxFriedrichs", "HLLC"], ["LaxFriedrichs", "HLLC"]⟩
/-- enums.h:94-108 -/
def icTable : EnumTable :=
  ⟨["Uniform", "Gaussian", "Sphere", "IsentropicVortex"],
   ["Uniform", "Gaussian", "Sphere", "IsentropicVortex"]⟩
/-- enums.h:110-139 -/
def basisTable : EnumTable :=
  ⟨["LagrangeSeg", "LagrangeQuad", "LagrangeHex", "LegendreSeg", "LegendreQuad", "LegendreHex",
    "LagrangeGLL1D", "LagrangeGLL2D", "LagrangeGLL3D", "LagrangeGL2D", "LagrangeGL3D",
    "TriangleLagrange"],
   ["LagrangeSeg", "LagrangeQuad", "LagrangeHex", "LegendreSeg", "LegendreQuad", "LegendreHex",
    "LagrangeGLL1D", "LagrangeGLL2D", "LagrangeGLL3D", "LagrangeGL2D", "LagrangeGL3D",
    "TriangleLagrange"]⟩
/-- enums.h:141-155 -/
def quadratureTable : EnumTable :=
  ⟨["GaussLegendre", "GaussLobatto", "TriangleDunavant", "TriangleGaussLegendre"],
   ["GaussLegendre", "GaussLobatto", "TriangleDunavant", "TriangleGaussLegendre"]⟩
/-- enums.h:157-167 -/
def nodeTable : EnumTable := ⟨["Equidistant", "Interior"], ["Equidistant", "Interior"]⟩
/-- enums.h:169-181 -/
def normTable : EnumTable := ⟨["DomainIntegral", "L1", "L2"], ["DomainIntegral", "L1", "L2"]⟩
/-- enums.h:183-197 -/
def shapeTable : EnumTable :=
  ⟨["Segment", "Quadrilateral", "Hexahedron", "Triangle"],
   ["Segment", "Quadrilateral", "Hexahedron", "Triangle"]⟩
/-- enums.h:199-215 -/
def schemeTable : EnumTable :=
  ⟨["DG", "SumFact", "LegendreStruct", "ColocatedGL", "ColocatedGLL"],
   ["DG", "SumFact", "LegendreStruct", "ColocatedGL", "ColocatedGLL"]⟩
/-- enums.h:217-227 -/
def initTable : EnumTable := ⟨["L2Projection", "Interpolation"], ["L2Projection", "Interpolation"]⟩

/-- all configuration enumerations of enums.h (common/enums.h 56-229) -/
def allEnums : List EnumTable :=
  [physicsTypeTable, stepperTypeTable, numericalFluxTable, icTable, basisTable, quadratureTable,
   nodeTable, normTable, shapeTable, schemeTable, initTable]

/-- `StepperType`, enums.h:69-72 -/
inductive StepperType | ForwardEuler | RungeKutta4 deriving DecidableEq, Repr

/-- `BasisType`, enums.h:110-123 -/
inductive BasisType
  | LagrangeSeg | LagrangeQuad | LagrangeHex | LegendreSeg | LegendreQuad | LegendreHex
  | LagrangeGLL1D | LagrangeGLL2D | LagrangeGLL3D | LagrangeGL2D | LagrangeGL3D | TriangleLagrange
  deriving DecidableEq, Repr

/-- members in declaration order; `T(index)` of enums.h:53 is `members[index]` -/
def PhysicsType.members : List PhysicsType := [.Euler, .NavierStokes]
/-- see `PhysicsType.members` (common/enums.h 81-91) -/
def NumericalFluxType.members : List NumericalFluxType := [.LaxFriedrichs, .HLLC]
/-- see `PhysicsType.members` (common/enums.h 93-107) -/
def ICType.members : List ICType := [.Uniform, .Gaussian, .Sphere, .IsentropicVortex]
/-- see `PhysicsType.members` (common/enums.h 68-79) -/
def StepperType.members : List StepperType := [.ForwardEuler, .RungeKutta4]
/-- see `PhysicsType.members` (common/enums.h 109-139) -/
def BasisType.members : List BasisType :=
  [.LagrangeSeg, .LagrangeQuad, .LagrangeHex, .LegendreSeg, .LegendreQuad, .LegendreHex,
   .LagrangeGLL1D, .LagrangeGLL2D, .LagrangeGLL3D, .LagrangeGL2D, .LagrangeGL3D, .TriangleLagrange]

/-- `T(enum_from_string(s))` (common/enums.h 32-54) -/
def parseEnum {α : Type} (T : EnumTable) (members : List α) (s : String) : Option α :=
  (enumFromString T s).bind fun i => members[i]?

/-- The part of the input deck read by the solver constructor, base.cpp:26-58 (`none` = key absent). -/
structure SolverInput where
  /-- `InitialCondition.name` -/
  icName : Option String
  /-- `Physics.name` -/
  physName : Option String
  /-- `Physics.convective_flux_fcn` -/
  fluxName : Option String
  /-- `Physics.gamma` -/
  gamma : Option ℝ
  /-- `Physics.GasConstant` -/
  gasConstant : Option ℝ
  /-- `Stepper.type` -/
  stepperName : Option String
  /-- `Stepper.timestep` -/
  timestep : Option ℝ
  /-- `Stepper.end` -/
  tend : Option ℝ
  /-- `Stepper.start` -/
  tstart : Option ℝ

/-- What the solver constructor sets up. (solver/base.cpp 20-67) -/
structure SolverSetup where
  /-- `physics` -/
  physics : Physics
  /-- the stepper object -/
  stepper : StepperType
  /-- `dt` -/
  dt : ℝ
  /-- `tfinal` -/
  tfinal : ℝ
  /-- `time` -/
  time : ℝ

/-- `Solver::Solver`, base.cpp:21-58, with `Physics::Physics` (physics/base/base.cpp:17-22),
`set_physical_params` (24-32) and `StepperFactory::create_stepper` (stepper.h:75-89).  `none` = an
exception (missing key or unknown name).  `γ0`, `R0`: the members when the physics is not Euler
(uninitialised). -/
noncomputable def makeSolver (inp : SolverInput) (icData : List ℝ) (γ0 R0 : ℝ) :
    Option SolverSetup := do
  let time : ℝ := 0
  let icName ← inp.icName
  let phys ← inp.physName
  let ptype ← parseEnum physicsTypeTable PhysicsType.members phys
  let ftype ← parseEnum numericalFluxTable NumericalFluxType.members
    (inp.fluxName.getD "LaxFriedrichs")
  let ic ← parseEnum icTable ICType.members icName
  let γ := if ptype = .Euler then inp.gamma.getD (14 / 10) else γ0
  let R := if ptype = .Euler then inp.gasConstant.getD (28705 / 100) else R0
  let stepper ← parseEnum stepperTypeTable StepperType.members (inp.stepperName.getD "FE")
  let dt ← inp.timestep
  let tfinal ← inp.tend
  return ⟨⟨ptype, ftype, ic, icData, γ, R⟩, stepper, dt, tfinal, time⟩

/-- `EnumMap::get_num_bases`, numerics_data.cpp:11-37; `none` = InputException. -/
def getNumBases (t : BasisType) (order : ℕ) : Option ℕ :=
  match t with
  | .LagrangeSeg | .LagrangeGLL1D => some (order + 1)
  | .LagrangeQuad | .LagrangeGLL2D | .LagrangeGL2D | .LegendreQuad => some ((order + 1) * (order + 1))
  | .LagrangeHex | .LagrangeGLL3D | .LagrangeGL3D | .LegendreHex =>
    some ((order + 1) * (order + 1) * (order + 1))
  | .TriangleLagrange => some ((order + 1) * (order + 2) / 2)
  | .LegendreSeg => none

/-- `EnumMap::get_num_bases_1d`, numerics_data.cpp:39-60. -/
def getNumBases1d (t : BasisType) (order : ℕ) : Option ℕ :=
  match t with
  | .LegendreSeg => none
  | .TriangleLagrange => some 0
  | _ => some (order + 1)

/-- Geometry decided by `NumericsParams::NumericsParams`, numerics_data.cpp:243-283: geometric basis,
faces per element, orientations; `none` = InputException. -/
def geometricBasis (t : BasisType) : Option (BasisType × ℕ × ℕ) :=
  match t with
  | .LagrangeSeg | .LagrangeGLL1D => some (.LagrangeSeg, 2, 1)
  | .LagrangeQuad | .LagrangeGLL2D | .LagrangeGL2D | .LegendreQuad => some (.LagrangeQuad, 4, 2)
  | .LagrangeHex | .LagrangeGLL3D | .LagrangeGL3D | .LegendreHex => some (.LagrangeHex, 6, 8)
  | .TriangleLagrange => some (.TriangleLagrange, 3, 2)
  | .LegendreSeg => none

/-- `ShapeType`, enums.h:183-188 -/
inductive ShapeType | Segment | Quadrilateral | Hexahedron | Triangle deriving DecidableEq, Repr

/-- `Basis::Basis`, basis.cpp:238-291: element and face shape; `none` = no branch matches and every
function pointer stays unset (calling it is undefined behaviour). -/
def basisShape (t : BasisType) : Option (ShapeType × Option ShapeType) :=
  match t with
  | .LagrangeSeg | .LegendreSeg => some (.Segment, none)
  | .LagrangeQuad | .LegendreQuad => some (.Quadrilateral, some .Segment)
  | .LagrangeHex | .LegendreHex => some (.Hexahedron, some .Quadrilateral)
  | _ => none

/-- `Shape::get_num_basis_coeff`, shape.cpp:14-24 through the pointers of shape.cpp:534-594. -/
def shapeNumBasis (s : ShapeType) (p : ℕ) : Option ℕ :=
  match s with
  | .Segment => some (numBasisSeg p)
  | .Quadrilateral => some (numBasisQuad p)
  | .Hexahedron => some (numBasisHex p)
  | .Triangle => none

/-- `EnumMap::get_solfile_params`, numerics_data.cpp:182-222: points per element, sub-cells per
element and points per sub-cell of the post-processing output; `none` = FatalException. -/
def solfileParams (t : BasisType) (order : ℕ) : Option (ℕ × ℕ × ℕ) :=
  match t with
  | .LagrangeQuad | .LagrangeGLL2D | .LagrangeGL2D | .LegendreQuad =>
    some ((max order 1 + 1) ^ 2, max order 1 ^ 2, 4)
  | .LagrangeHex | .LagrangeGLL3D | .LagrangeGL3D | .LegendreHex =>
    some ((max order 1 + 1) ^ 3, max order 1 ^ 3, 8)
  | .TriangleLagrange => some ((max order 1 + 1) * (max order 1 + 2) / 2, max order 1 * max order 1, 3)
  | _ => none

/-- `Basis::get_values`, basis.cpp:292-297, through the pointer set by the constructor (238-291), for
the row of one point `(x, y, z)`; `none` = out-of-bounds write or a call through an unset pointer. -/
def basisValues {K : Type} [Zero K] [One K] [Add K] [Sub K] [Mul K] [Neg K] [Div K] [NatCast K] (t : BasisType) (order : ℕ) (x y z : K) (row : List K) :
    Option (List K) :=
  match t with
  | .LagrangeSeg => valuesLagrangeSeg order x row
  | .LagrangeQuad => valuesLagrangeQuad order x y row
  | .LagrangeHex => valuesLagrangeHex order x y z row
  | .LegendreSeg => valuesLegendreSeg order x row
  | .LegendreQuad => valuesLegendreQuad order x y row
  | .LegendreHex => valuesLegendreHex order x y z row
  | _ => none

/-- `QuadratureType`, enums.h:141-146 -/
inductive QuadratureType | GaussLegendre | GaussLobatto | TriangleDunavant | TriangleGaussLegendre
  deriving DecidableEq, Repr

/-- the table of `EnumMap::get_num_quad` for the Dunavant rules, numerics_data.cpp:77-143; other
orders keep `nq = 1`. -/
def dunavantSize (order : ℕ) : ℕ :=
  ([1, 1, 3, 4, 6, 7, 12, 13, 16, 19, 25, 27, 33, 37, 42, 48, 52, 61, 70, 73, 79][order]?).getD 1

/-- `EnumMap::get_num_quad`, numerics_data.cpp:62-150; `ceil((order+1.)/2.)` is `(order + 2) / 2`. -/
def getNumQuad (t : QuadratureType) (dim order : ℕ) : ℕ :=
  match t with
  | .GaussLegendre => ((order + 2) / 2) ^ dim
  | .GaussLobatto => (1 + (order + 2) / 2) ^ dim
  | .TriangleGaussLegendre => ((order + 3) / 2) ^ dim
  | .TriangleDunavant => if dim = 1 then ((order + 2) / 2) ^ dim else dunavantSize order

/-- What the `NumericsParams` constructor sets, numerics_data.cpp:230-312. -/
structure NumParams where
  /-- `order` -/
  order : ℕ
  /-- `basis` -/
  basis : BasisType
  /-- `nb` -/
  nb : ℕ
  /-- `nb1d` -/
  nb1d : ℕ
  /-- `gorder` -/
  gorder : ℕ
  /-- `gbasis` -/
  gbasis : BasisType
  /-- `nface` -/
  nface : ℕ
  /-- `norient` -/
  norient : ℕ
  /-- `gnb` -/
  gnb : ℕ
  /-- `quad` -/
  quad : QuadratureType

/-- `NumericsParams::NumericsParams`, numerics_data.cpp:230-312.  `orderKey`: the integer
`Numerics.order` (converted to `unsigned`: a negative value becomes huge and fails the assertion on
`nb` or wraps; only non-negative values are modelled); `nbMax` = `N_BASIS_MAX`.
`none` = exception or failed assertion. -/
def makeNumParams (nbMax : ℕ) (orderKey : Option ℕ) (basisKey quadKey : Option String)
    (gorder : ℕ) : Option NumParams := do
  let order ← orderKey
  let name ← basisKey
  let basis ← parseEnum basisTable BasisType.members name
  let nb ← getNumBases basis order
  let nb1d ← getNumBases1d basis order
  if nb ≤ nbMax then
    let (gbasis, nface, norient) ← geometricBasis basis
    let gnb ← getNumBases gbasis gorder
    let quadName := quadKey.getD
      (if basis = .TriangleLagrange then "TriangleDunavant" else "GaussLegendre")
    let quad ← parseEnum quadratureTable
      [QuadratureType.GaussLegendre, .GaussLobatto, .TriangleDunavant, .TriangleGaussLegendre] quadName
    return ⟨order, basis, nb, nb1d, gorder, gbasis, nface, norient, gnb, quad⟩
  else none

end DG
