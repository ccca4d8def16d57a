import Verif.Model.Main
import Verif.Spec.EulerDG
import Verif.Spec.IO
import Verif.Props.Config

/-!
Specification for the whole program: what a mesh file contains, what an input file asks for.
-/
namespace DG

/-- The mesh file stores the mesh `m` of dimension `dim`: sizes, connectivity, coordinates row by row, six
numbers per interior face, three per boundary face, no element with more than six boundary faces. -/
structure MeshFileOf {K : Type} (m : GMesh K) (dim : ℕ) (mf : MeshFile K) : Prop where
  fileDim : mf.dim = dim
  numElems : mf.numElems = m.numElems
  numNodes : mf.numNodes = m.coord.length
  numFaces : mf.nIF = m.faces.length
  npe : mf.npe = m.npe
  conn : mf.elem2Nodes = m.eind
  rows : ∀ row ∈ m.coord, row.length = dim
  coords : mf.nodeCoords = m.coord.flatten
  faces : mf.ifaceData = m.faces.flatMap fun f => [f.elemL, f.faceL, f.orientL, f.elemR, f.faceR, f.orientR]
  bnd : ∃ bss : List (List BFace),
    mf.bgroups = (bss.map fun bs => (bs.length, bs.flatMap fun b => [b.elem, b.face, b.orient])) ∧
    (∀ bs ∈ bss, ∀ b ∈ bs, b.elem < m.numElems) ∧
    ∀ e < m.numElems, (bss.flatten.filter fun b => b.elem == e).length ≤ 6

/-- The input file asks for a run in `dim` dimensions with the basis of that name and order `p`, the physics
`ph`, the stepper `st`, time step `dt` and final time `T`; missing optional keys stand for their defaults. -/
structure DeckAsks (deck : Deck) (dim p : ℕ) (basis : BasisType) (ph : Physics) (st : StepperType) (dt T : ℝ) : Prop where
  runDim : deck.dim = some dim
  order : deck.order = some p
  basisName : deck.basis = some basis.label
  quad : ∀ q, deck.quad = some q → q ∈ ["GaussLegendre", "GaussLobatto", "TriangleDunavant", "TriangleGaussLegendre"]
  parts : deck.parts.topLevelNpartitions = false
  ic : deck.solver.icName = some ph.ic.label
  icData : deck.icData = some ph.icData
  icSize : ph.icData.length ≤ 10
  euler : deck.solver.physName = some "Euler" ∧ ph.ptype = .Euler
  flux : deck.solver.fluxName = some ph.ftype.label ∨ deck.solver.fluxName = none ∧ ph.ftype = .LaxFriedrichs
  gamma : deck.solver.gamma = some ph.γ ∨ deck.solver.gamma = none ∧ ph.γ = 14 / 10
  gas : deck.solver.gasConstant = some ph.R ∨ deck.solver.gasConstant = none ∧ ph.R = 28705 / 100
  stepper : deck.solver.stepperName = some st.label ∨ deck.solver.stepperName = none ∧ st = .ForwardEuler
  timestep : deck.solver.timestep = some dt
  tend : deck.solver.tend = some T

/-- The parallel environment of a run on `nranks` ranks: the partitioner gives every rank the same valid
answer, hash tables are enumerated completely, and every rank has at least three interior faces (the
debug print of the constructor reads three). -/
structure LaunchOK {K : Type} (m : GMesh K) (nranks : ℕ) (part : List ℕ) (env : ℕ → RankEnv K) : Prop where
  pos : 0 < nranks
  parts : PartOK m nranks part
  metis : ∀ r < nranks, 1 < nranks → (env r).metis = part
  enum : ∀ r, EnumOK (env r).enum
  busy : ∀ r < nranks, 3 ≤ (m.faces.filter fun f => decide (Touches part r f)).length

/-- The textbook scheme with the name of the input file: "FE" is the explicit Euler method,
"RK4" the classical method with four stages. -/
def StepperType.scheme : StepperType → Stepper
  | .ForwardEuler => .FE
  | .RungeKutta4 => .RK4

/-- `n` steps of the textbook scheme for the Euler equations on quadrilaterals from the projected initial
state. -/
noncomputable def quadRun (t : Fam) (p : ℕ) (m : GMesh ℝ) (ph : Physics) (start : (ℕ → ℝ) → ℕ → ℝ) (st : Stepper)
    (dt : ℝ) (n : ℕ) : Coeffs ℝ :=
  (stepOf st dt (globalRHS (quadEuler t p ph.ftype ph.γ) m (quadGeom t p m)))^[n] (quadInit t p m start)

/-- The same on hexahedra. -/
noncomputable def hexRun (t : Fam) (p : ℕ) (m : GMesh ℝ) (ph : Physics) (start : (ℕ → ℝ) → ℕ → ℝ) (st : Stepper)
    (dt : ℝ) (n : ℕ) : Coeffs ℝ :=
  (stepOf st dt (globalRHS (hexEuler t p ph.ftype ph.γ) m (hexGeom t p m)))^[n] (hexInit t p m start)

/-- The distance of the solution `V` from the function `u` in the discrete L² norm, divided by the square root
of the area: the errors of variable `v` at Gauss points (`2 max(p,1) + 2` per direction), the area by the
rule with `p + 2` points per direction. -/
noncomputable def quadDist (t : Fam) (p : ℕ) (m : GMesh ℝ) (u : (ℕ → ℝ) → ℕ → ℝ) (V : Coeffs ℝ) (v : ℕ) : ℝ :=
  let o := 2 * max p 1
  let x := fun q : ℕ => glX (2 * o + 3) (q % (o + 2))
  let y := fun q : ℕ => glX (2 * o + 3) (q / (o + 2))
  Real.sqrt
    ((∑ e ∈ Finset.range m.numElems, ∑ q ∈ Finset.range ((o + 2) * (o + 2)),
        glW (2 * o + 3) (q % (o + 2)) * glW (2 * o + 3) (q / (o + 2)) * quadDet (fileCoords m e) (x q) (y q) *
          (∑ b ∈ Finset.range ((p + 1) * (p + 1)), V e b v * phi t p b (x q) (y q)
            - u (fun d => if d < 2 then quadMap (fileCoords m e) (x q) (y q) d else 0) v) ^ 2) /
      ∑ e ∈ Finset.range m.numElems, ∑ q ∈ Finset.range ((p + 2) * (p + 2)),
        glW (2 * p + 3) (q % (p + 2)) * glW (2 * p + 3) (q / (p + 2)) *
          quadDet (fileCoords m e) (glX (2 * p + 3) (q % (p + 2))) (glX (2 * p + 3) (q / (p + 2))))

/-- The same on hexahedra, divided by the square root of the volume. -/
noncomputable def hexDist (t : Fam) (p : ℕ) (m : GMesh ℝ) (u : (ℕ → ℝ) → ℕ → ℝ) (V : Coeffs ℝ) (v : ℕ) : ℝ :=
  let o := 2 * max p 1
  Real.sqrt
    ((∑ e ∈ Finset.range m.numElems, ∑ q ∈ Finset.range ((o + 2) * (o + 2) * (o + 2)),
        wt3 o q * hexDet (fileCoords m e) (volPt3 o q) *
          (∑ b ∈ Finset.range ((p + 1) * (p + 1) * (p + 1)), V e b v * phi3 t p b (volPt3 o q)
            - u (fun d => if d < 3 then hexMap (fileCoords m e) (volPt3 o q) d else 0) v) ^ 2) /
      ∑ e ∈ Finset.range m.numElems, ∑ q ∈ Finset.range ((p + 2) * (p + 2) * (p + 2)),
        wt3 p q * hexDet (fileCoords m e) (volPt3 p q))

end DG
