import Verif.Spec.Solver
import Verif.Lemmas.Setup
import Verif.Props.Volume
import Mathlib.LinearAlgebra.Matrix.NonsingularInverse

/-!
Specification: the discontinuous Galerkin discretisation on a mesh of bilinear quadrilaterals, in
textbook form: element maps, Jacobians, normals, mass matrices, initial projection.  Data: the
one-dimensional polynomials of the basis (`famPoly`: Lagrange polynomials of equidistant nodes, or
Legendre polynomials) and the tabulated Gauss rules (`glX`, `glW`; properties C23, C24).
-/
namespace DG
open Finset Polynomial

/-! ### one element -/

/-- bilinear map of the reference square with corner coordinates `X` (first direction fastest) -/
noncomputable def quadMap (X : ℕ → ℕ → ℝ) (ξ η : ℝ) (d : ℕ) : ℝ :=
  ((1 - ξ) * (1 - η) * X 0 d + (1 + ξ) * (1 - η) * X 1 d +
    (1 - ξ) * (1 + η) * X 2 d + (1 + ξ) * (1 + η) * X 3 d) / 4

/-- `∂x_d/∂ξ` -/
noncomputable def quadXi (X : ℕ → ℕ → ℝ) (η : ℝ) (d : ℕ) : ℝ :=
  ((1 - η) * (X 1 d - X 0 d) + (1 + η) * (X 3 d - X 2 d)) / 4

/-- `∂x_d/∂η` -/
noncomputable def quadEta (X : ℕ → ℕ → ℝ) (ξ : ℝ) (d : ℕ) : ℝ :=
  ((1 - ξ) * (X 2 d - X 0 d) + (1 + ξ) * (X 3 d - X 1 d)) / 4

/-- Jacobian determinant -/
noncomputable def quadDet (X : ℕ → ℕ → ℝ) (ξ η : ℝ) : ℝ :=
  quadXi X η 0 * quadEta X ξ 1 - quadEta X ξ 0 * quadXi X η 1

/-- `∂ξ_i/∂x_j` (with `ξ_0 = ξ`, `ξ_1 = η`) -/
noncomputable def quadInvJac (X : ℕ → ℕ → ℝ) (ξ η : ℝ) (i j : ℕ) : ℝ :=
  (if i = 0 then (if j = 0 then quadEta X ξ 1 else - quadEta X ξ 0)
    else (if j = 0 then - quadXi X η 1 else quadXi X η 0)) / quadDet X ξ η

/-- point `s` of side `f` of the reference square: the sides run counter-clockwise from the bottom -/
def sidePoint (f : ℕ) (s : ℝ) : ℝ × ℝ :=
  if f = 0 then (s, -1) else if f = 1 then (1, s) else if f = 2 then (-s, 1) else (-1, -s)

/-- first corner of side `f` -/
def sideFrom (f : ℕ) : ℕ := if f = 0 then 0 else if f = 1 then 1 else if f = 2 then 3 else 2
/-- last corner of side `f` -/
def sideTo (f : ℕ) : ℕ := if f = 0 then 1 else if f = 1 then 3 else if f = 2 then 2 else 0

/-- outward normal of side `f`, with the length of half the side -/
noncomputable def sideNormal (X : ℕ → ℕ → ℝ) (f j : ℕ) : ℝ :=
  if j = 0 then (X (sideTo f) 1 - X (sideFrom f) 1) / 2
  else - ((X (sideTo f) 0 - X (sideFrom f) 0) / 2)

/-- basis function `b` of order `p` -/
noncomputable def phi (t : Fam) (p b : ℕ) (ξ η : ℝ) : ℝ :=
  (famPoly t p (b % (p + 1))).eval ξ * (famPoly t p (b / (p + 1))).eval η

/-- its derivative in direction `i` -/
noncomputable def dphi (t : Fam) (p b i : ℕ) (ξ η : ℝ) : ℝ :=
  if i = 0 then (derivative (famPoly t p (b % (p + 1)))).eval ξ * (famPoly t p (b / (p + 1))).eval η
  else (famPoly t p (b % (p + 1))).eval ξ * (derivative (famPoly t p (b / (p + 1)))).eval η

/-! ### discretisation -/

/-- points, weights and basis tables for order `p`: rule of order `2p+3` in the element (`p+2` points
per direction), `2p+1` on the sides (`p+1` points) -/
noncomputable def quadDisc (t : Fam) (p ns : ℕ) (volFlux : (ℕ → ℝ) → ℕ → ℝ)
    (numFlux : (ℕ → ℝ) → (ℕ → ℝ) → (ℕ → ℝ) → ℕ → ℝ) : Disc ℝ where
  dim := 2
  ns := ns
  nb := (p + 1) * (p + 1)
  nq := (p + 2) * (p + 2)
  nface := 4
  nqf := p + 1
  volBasis := fun q b => phi t p b (glX (2 * p + 3) (q % (p + 2))) (glX (2 * p + 3) (q / (p + 2)))
  volGrad := fun q b i => dphi t p b i (glX (2 * p + 3) (q % (p + 2))) (glX (2 * p + 3) (q / (p + 2)))
  volWts := fun q => glW (2 * p + 3) (q % (p + 2)) * glW (2 * p + 3) (q / (p + 2))
  faceBasis := fun f q b => phi t p b (sidePoint f (glX (2 * p + 1) q)).1 (sidePoint f (glX (2 * p + 1) q)).2
  faceWts := glW (2 * p + 1)
  ptsOrder := fun o i => if o = 0 then i else p - i
  volFlux := volFlux
  numFlux := numFlux

/-- mass matrix of the element with corners `X`: rule of order `2 o + 3` (`o + 2` points per direction) -/
noncomputable def quadMass (t : Fam) (p o : ℕ) (X : ℕ → ℕ → ℝ) (a b : ℕ) : ℝ :=
  ∑ q ∈ range ((o + 2) * (o + 2)),
    glW (2 * o + 3) (q % (o + 2)) * glW (2 * o + 3) (q / (o + 2)) *
      quadDet X (glX (2 * o + 3) (q % (o + 2))) (glX (2 * o + 3) (q / (o + 2))) *
      (phi t p a (glX (2 * o + 3) (q % (o + 2))) (glX (2 * o + 3) (q / (o + 2))) *
       phi t p b (glX (2 * o + 3) (q % (o + 2))) (glX (2 * o + 3) (q / (o + 2))))

/-- inverse mass matrix of the element with corners `X`; the rule has order `4p+3` -/
noncomputable def quadInvMass (t : Fam) (p : ℕ) (X : ℕ → ℕ → ℝ) (i j : ℕ) : ℝ :=
  if h : i < (p + 1) * (p + 1) ∧ j < (p + 1) * (p + 1) then
    (Matrix.of fun a b : Fin ((p + 1) * (p + 1)) => quadMass t p (2 * p) X a b)⁻¹ ⟨i, h.1⟩ ⟨j, h.2⟩
  else 0

/-- face number `g` of the mesh -/
def faceAt {α : Type} (m : GMesh α) (g : ℕ) : IFace := (m.faces[g]?).getD ⟨0, 0, 0, 0, 0, 0⟩

/-- geometry of the mesh, by global element and face numbers; the normal of a face is the outward
normal of its left element -/
noncomputable def quadGeom (t : Fam) (p : ℕ) (m : GMesh ℝ) : Geom ℝ where
  djac := fun e q => quadDet (fileCoords m e) (glX (2 * p + 3) (q % (p + 2))) (glX (2 * p + 3) (q / (p + 2)))
  ijac := fun e q i j =>
    quadInvJac (fileCoords m e) (glX (2 * p + 3) (q % (p + 2))) (glX (2 * p + 3) (q / (p + 2))) i j
  iMM := fun e i j => quadInvMass t p (fileCoords m e) i j
  normals := fun g _ j => sideNormal (fileCoords m (faceAt m g).elemL)
    (faceAt m g).faceL j

/-- projection of the initial condition `ic` (a function of the physical point); the rule has order
`4 max(p,1) + 3` -/
noncomputable def quadInit (t : Fam) (p : ℕ) (m : GMesh ℝ) (ic : (ℕ → ℝ) → ℕ → ℝ) : Coeffs ℝ :=
  fun e b s =>
    let o := 2 * max p 1
    let x := fun q : ℕ => glX (2 * o + 3) (q % (o + 2))
    let y := fun q : ℕ => glX (2 * o + 3) (q / (o + 2))
    ∑ j ∈ range ((p + 1) * (p + 1)), quadInvMass t p (fileCoords m e) b j *
      ∑ q ∈ range ((o + 2) * (o + 2)),
        glW (2 * o + 3) (q % (o + 2)) * glW (2 * o + 3) (q / (o + 2)) * quadDet (fileCoords m e) (x q) (y q) *
          (phi t p j (x q) (y q) *
            ic (fun d => if d < 2 then quadMap (fileCoords m e) (x q) (y q) d else 0) s)

/-! ### meshes -/

/-- A mesh of bilinear quadrilaterals: four nodes per element; every element map is orientation
preserving; a side (element, side number) belongs to at most one face; the two sides of a face are
traversed in opposite directions and, up to a translation (periodic meshes), are the same segment. -/
structure QuadMesh (m : GMesh ℝ) : Prop where
  npe : m.npe = 4
  det : ∀ e < m.numElems, ∀ ξ η : ℝ, -1 < ξ → ξ < 1 → -1 < η → η < 1 → 0 < quadDet (fileCoords m e) ξ η
  faceL : ∀ f ∈ m.faces, f.faceL < 4 ∧ f.orientL < 2
  faceR : ∀ f ∈ m.faces, f.faceR < 4 ∧ f.orientR < 2
  sides : (m.faces.flatMap fun f => [(f.elemL, f.faceL), (f.elemR, f.faceR)]).Nodup
  match_ : ∀ f ∈ m.faces, ∃ shift : ℕ → ℝ, ∀ s : ℝ, ∀ d < 2,
    quadMap (fileCoords m f.elemL) (sidePoint f.faceL s).1 (sidePoint f.faceL s).2 d =
      quadMap (fileCoords m f.elemR) (sidePoint f.faceR (-s)).1 (sidePoint f.faceR (-s)).2 d + shift d

/-- `quadXi` and `quadEta` are the derivatives of the map. -/
theorem quadMap_derivs (X : ℕ → ℕ → ℝ) (ξ η : ℝ) (d : ℕ) :
    HasDerivAt (fun s => quadMap X s η d) (quadXi X η d) ξ ∧
    HasDerivAt (fun s => quadMap X ξ s d) (quadEta X ξ d) η := by
  have hlin : ∀ (a b x : ℝ) (f : ℝ → ℝ), (∀ s, f s = a + s * b) → HasDerivAt f b x := by
    intro a b x f hf
    have : f = fun s => a + s * b := funext hf
    rw [this]; exact hasDerivAt_lin _ _ _
  constructor
  · exact hlin (((1 - η) * (X 0 d + X 1 d) + (1 + η) * (X 2 d + X 3 d)) / 4) _ _ _
      (fun s => by unfold quadMap quadXi; ring)
  · exact hlin (((1 - ξ) * (X 0 d + X 2 d) + (1 + ξ) * (X 1 d + X 3 d)) / 4) _ _ _
      (fun s => by unfold quadMap quadEta; ring)

/-- `quadInvJac` is the inverse of the matrix of these derivatives. -/
theorem quadInvJac_inv (X : ℕ → ℕ → ℝ) (ξ η : ℝ) (h : quadDet X ξ η ≠ 0) (i k : ℕ) (hi : i < 2) (hk : k < 2) :
    quadInvJac X ξ η i 0 * (if k = 0 then quadXi X η 0 else quadEta X ξ 0) +
      quadInvJac X ξ η i 1 * (if k = 0 then quadXi X η 1 else quadEta X ξ 1) = if i = k then 1 else 0 := by
  have h2 : quadXi X η 0 * quadEta X ξ 1 - quadEta X ξ 0 * quadXi X η 1 ≠ 0 := h
  have hI : i = 0 ∨ i = 1 := by omega
  have hK : k = 0 ∨ k = 1 := by omega
  rcases hI with rfl | rfl <;> rcases hK with rfl | rfl <;>
    (simp only [quadInvJac, quadDet]
     rw [div_mul_eq_mul_div, div_mul_eq_mul_div, ← add_div, div_eq_iff h2]
     simp
     try ring)

/-- The normal is the outward one: the derivative of the side rotated clockwise. -/
theorem sideNormal_tangent (X : ℕ → ℕ → ℝ) (f : ℕ) (hf : f < 4) (s : ℝ) :
    HasDerivAt (fun u => quadMap X (sidePoint f u).1 (sidePoint f u).2 1) (sideNormal X f 0) s ∧
    HasDerivAt (fun u => quadMap X (sidePoint f u).1 (sidePoint f u).2 0) (- sideNormal X f 1) s := by
  have hlin : ∀ (a b x : ℝ) (f : ℝ → ℝ), (∀ s, f s = a + s * b) → HasDerivAt f b x := by
    intro a b x f hf
    have : f = fun s => a + s * b := funext hf
    rw [this]; exact hasDerivAt_lin _ _ _
  have hF : f = 0 ∨ f = 1 ∨ f = 2 ∨ f = 3 := by omega
  constructor
  · refine hlin ((X (sideTo f) 1 + X (sideFrom f) 1) / 2) _ _ _ fun u => ?_
    rcases hF with rfl | rfl | rfl | rfl <;>
      simp [quadMap, sidePoint, sideNormal, sideTo, sideFrom] <;> ring
  · refine hlin ((X (sideTo f) 0 + X (sideFrom f) 0) / 2) _ _ _ fun u => ?_
    rcases hF with rfl | rfl | rfl | rfl <;>
      simp [quadMap, sidePoint, sideNormal, sideTo, sideFrom] <;> ring

end DG
