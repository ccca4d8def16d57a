import Verif.Model.Solver
import Mathlib.Algebra.BigOperators.Group.Finset.Basic
import Mathlib.Data.Finset.Range

/-!
Specification: the discontinuous Galerkin scheme on the whole mesh, without ranks, local numbers,
work arrays or loops; the textbook time integrators.  `Disc` is used as the record of the
discretisation (extents, basis tables, weights, flux functions); the geometry is indexed by global
element and face numbers.
-/
namespace DG
open Finset

variable {K : Type}

/-- coefficients (element, basis function, state variable) -/
abbrev Coeffs (K : Type) := ℕ → ℕ → ℕ → K

/-- Two coefficient arrays agree on the entries that exist. -/
def AgreeIn (d : Disc K) (ne : ℕ) (U V : Coeffs K) : Prop :=
  ∀ e < ne, ∀ b < d.nb, ∀ s < d.ns, U e b s = V e b s

/-- A conforming mesh for the reference element of `d`: faces have valid reference faces and
orientations, and a side (element, reference face) belongs to at most one mesh face, on one side of
it.  (Sides that belong to no face are boundary sides.) -/
structure Conforming {α : Type} (d : Disc K) (norient : ℕ) (m : GMesh α) : Prop where
  faceL : ∀ f ∈ m.faces, f.faceL < d.nface ∧ f.orientL < norient
  faceR : ∀ f ∈ m.faces, f.faceR < d.nface ∧ f.orientR < norient
  sides : (m.faces.flatMap fun f => [(f.elemL, f.faceL), (f.elemR, f.faceR)]).Nodup

/-- The slot order of every orientation is a permutation of the points of a face (C13). -/
def OrderOK (d : Disc K) (norient : ℕ) : Prop :=
  ∀ o < norient, (∀ i < d.nqf, d.ptsOrder o i < d.nqf) ∧
    ∀ i < d.nqf, ∀ j < d.nqf, d.ptsOrder o i = d.ptsOrder o j → i = j

/-- The geometry stored on a rank is the restriction of the geometry `G` of the mesh. -/
structure GeomRestrict {α : Type} (d : Disc K) (rm : RankMesh α) (g G : Geom K) : Prop where
  djac : ∀ k e : ℕ, rm.l2gElem[k]? = some e → ∀ q < d.nq, g.djac k q = G.djac e q
  ijac : ∀ k e : ℕ, rm.l2gElem[k]? = some e → ∀ q < d.nq, ∀ i < d.dim, ∀ j < d.dim,
    g.ijac k q i j = G.ijac e q i j
  iMM : ∀ k e : ℕ, rm.l2gElem[k]? = some e → ∀ i < d.nb, ∀ j < d.nb, g.iMM k i j = G.iMM e i j
  normals : ∀ i f : ℕ, rm.l2gFace[i]? = some f → ∀ q < d.nqf, ∀ j < d.dim,
    g.normals i q j = G.normals f q j

/-- The coefficients stored on a rank are those of its elements. -/
def CoeffsRestrict {α : Type} (d : Disc K) (rm : RankMesh α) (u U : Coeffs K) : Prop :=
  ∀ k e : ℕ, rm.l2gElem[k]? = some e → ∀ b < d.nb, ∀ s < d.ns, u k b s = U e b s

/-- The flux work array `Fq_elem` of a rank is zero in the slots of the sides that belong to no face
of the mesh (boundary sides).  It is allocated as zeros (base.cpp 576-577). -/
def BoundaryZero [Zero K] {α : Type} (d : Disc K) (m : GMesh α) (rm : RankMesh α) (Fe : ℕ → ℕ → ℕ → K) : Prop :=
  ∀ k face j s : ℕ, face < d.nface → j < d.nqf → s < d.ns →
    (∀ (e : ℕ) (f : IFace), rm.l2gElem[k]? = some e → f ∈ m.faces →
      (e, face) ≠ (f.elemL, f.faceL) ∧ (e, face) ≠ (f.elemR, f.faceR)) →
    Fe k (face * d.nqf + j) s = 0

variable [Field K]

/-- State at volume point `q` of element `e`. -/
def volState (d : Disc K) (U : Coeffs K) (e q : ℕ) : ℕ → K := fun s =>
  if s < d.ns then ∑ b ∈ range d.nb, d.volBasis q b * U e b s else 0

/-- State of element `e` at point `j` of its reference face `face`. -/
def traceState (d : Disc K) (U : Coeffs K) (e face j : ℕ) : ℕ → K := fun s =>
  if s < d.ns then ∑ b ∈ range d.nb, d.faceBasis face j b * U e b s else 0

/-- Weighted numerical flux through point `iq` of mesh face number `g`, from its left to its right
element: both traces are taken at the same point, which the two elements number according to their
orientation. -/
def meshFlux (d : Disc K) (G : Geom K) (U : Coeffs K) (g : ℕ) (f : IFace) (iq s : ℕ) : K :=
  d.numFlux (traceState d U f.elemL f.faceL (d.ptsOrder f.orientL iq))
    (traceState d U f.elemR f.faceR (d.ptsOrder f.orientR iq))
    (cArr d.dim (G.normals g iq)) s * d.faceWts iq

/-- Volume part of the residual: the integral of `∇φ_b · F`, `∇` transformed by the inverse Jacobian. -/
def volumeTerm (d : Disc K) (G : Geom K) (U : Coeffs K) (e b s : ℕ) : K :=
  ∑ q ∈ range d.nq, ∑ i ∈ range d.dim, d.volGrad q b i *
    ∑ j ∈ range d.dim, d.volFlux (volState d U e q) (j * d.ns + s) * G.ijac e q i j * G.djac e q *
      d.volWts q

/-- What face number `g` contributes to the residual of element `e`: the flux leaves the left element
and enters the right one. -/
def faceTerm (d : Disc K) (G : Geom K) (U : Coeffs K) (e b s g : ℕ) (f : IFace) : K :=
  ∑ iq ∈ range d.nqf,
    ((if f.elemR = e then d.faceBasis f.faceR (d.ptsOrder f.orientR iq) b else 0) -
     (if f.elemL = e then d.faceBasis f.faceL (d.ptsOrder f.orientL iq) b else 0)) *
    meshFlux d G U g f iq s

/-- The residual of the whole mesh. -/
def globalResidual {α : Type} (d : Disc K) (m : GMesh α) (G : Geom K) (U : Coeffs K) : Coeffs K :=
  fun e b s => volumeTerm d G U e b s +
    (m.faces.zipIdx.map fun x => faceTerm d G U e b s x.2 x.1).sum

/-- The right-hand side of `dU/dt = ...`: inverse mass matrix times residual. -/
def globalRHS {α : Type} (d : Disc K) (m : GMesh α) (G : Geom K) (U : Coeffs K) : Coeffs K :=
  fun e b s => ∑ j ∈ range d.nb, G.iMM e b j * globalResidual d m G U e j s

/-- Forward Euler step. -/
def eulerStep (dt : K) (rhs : Coeffs K → Coeffs K) (U : Coeffs K) : Coeffs K :=
  fun e b s => U e b s + dt * rhs U e b s

/-- The classical Runge-Kutta step of order 4. -/
def rk4Step (dt : K) (rhs : Coeffs K → Coeffs K) (U : Coeffs K) : Coeffs K :=
  let k1 := rhs U
  let k2 := rhs fun e b s => U e b s + dt / 2 * k1 e b s
  let k3 := rhs fun e b s => U e b s + dt / 2 * k2 e b s
  let k4 := rhs fun e b s => U e b s + dt * k3 e b s
  fun e b s => U e b s + dt / 6 * (k1 e b s + 2 * k2 e b s + 2 * k3 e b s + k4 e b s)

/-- Forward Euler for `dU/dt = f(t, U)`, textbook. -/
def eulerAt (dt : K) (f : K → Coeffs K → Coeffs K) (t : K) (U : Coeffs K) : Coeffs K :=
  fun e b s => U e b s + dt * f t U e b s

/-- The classical Runge-Kutta method for `dU/dt = f(t, U)`, textbook. -/
def rk4At (dt : K) (f : K → Coeffs K → Coeffs K) (t : K) (U : Coeffs K) : Coeffs K :=
  let k1 := f t U
  let k2 := f (t + dt / 2) fun e b s => U e b s + dt / 2 * k1 e b s
  let k3 := f (t + dt / 2) fun e b s => U e b s + dt / 2 * k2 e b s
  let k4 := f (t + dt) fun e b s => U e b s + dt * k3 e b s
  fun e b s => U e b s + dt / 6 * (k1 e b s + 2 * k2 e b s + 2 * k3 e b s + k4 e b s)

/-- One step of the chosen method for `dU/dt = f(t, U)`. -/
def methodAt (st : Stepper) : K → (K → Coeffs K → Coeffs K) → K → Coeffs K → Coeffs K :=
  match st with
  | .FE => eulerAt
  | .RK4 => rk4At

/-- Right-hand side evaluations per step. -/
def methodEvals : Stepper → ℕ
  | .FE => 1
  | .RK4 => 4

/-- One step of the chosen integrator. -/
def stepOf (st : Stepper) (dt : K) (rhs : Coeffs K → Coeffs K) : Coeffs K → Coeffs K :=
  match st with
  | .FE => eulerStep dt rhs
  | .RK4 => rk4Step dt rhs

/-- Integral of variable `v` over the whole mesh, by the quadrature rule with `n` points, basis values
`B q b` and weights (times Jacobian) `W e q`. -/
def meshIntegral {α : Type} (m : GMesh α) (nb n : ℕ) (W B : ℕ → ℕ → K) (U : Coeffs K) (v : ℕ) : K :=
  ∑ e ∈ range m.numElems, ∑ q ∈ range n, W e q * ∑ b ∈ range nb, B q b * U e b v

/-- The matrices `iMM` are the inverse mass matrices of the same rule. -/
def InvMassOf {α : Type} (m : GMesh α) (nb n : ℕ) (W B : ℕ → ℕ → K) (iMM : ℕ → ℕ → ℕ → K) : Prop :=
  ∀ e < m.numElems, ∀ a < nb, ∀ j < nb,
    ∑ b ∈ range nb, (∑ q ∈ range n, W e q * (B q a * B q b)) * iMM e b j = if a = j then 1 else 0

end DG
