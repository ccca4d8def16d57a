import Verif.Spec.QuadDG
import Mathlib.LinearAlgebra.Matrix.Adjugate

/-!
Specification: the discontinuous Galerkin discretisation on a mesh of trilinear hexahedra, in textbook
form.  Data as in `Spec/QuadDG.lean`: the one-dimensional polynomials of the basis (`famPoly`) and the
tabulated Gauss rules (`glX`, `glW`).
-/
namespace DG
open Finset Polynomial

/-! ### one element -/

/-- trilinear map of the reference cube with corner coordinates `X` (first direction fastest) -/
noncomputable def hexMap (X : ℕ → ℕ → ℝ) (x : ℝ × ℝ × ℝ) (d : ℕ) : ℝ :=
  ((1 - x.1) * (1 - x.2.1) * (1 - x.2.2) * X 0 d + (1 + x.1) * (1 - x.2.1) * (1 - x.2.2) * X 1 d +
    (1 - x.1) * (1 + x.2.1) * (1 - x.2.2) * X 2 d + (1 + x.1) * (1 + x.2.1) * (1 - x.2.2) * X 3 d +
    (1 - x.1) * (1 - x.2.1) * (1 + x.2.2) * X 4 d + (1 + x.1) * (1 - x.2.1) * (1 + x.2.2) * X 5 d +
    (1 - x.1) * (1 + x.2.1) * (1 + x.2.2) * X 6 d + (1 + x.1) * (1 + x.2.1) * (1 + x.2.2) * X 7 d) / 8

/-- derivative of component `d` of the map in reference direction `i` -/
noncomputable def hexDer (X : ℕ → ℕ → ℝ) (x : ℝ × ℝ × ℝ) (d i : ℕ) : ℝ :=
  if i = 0 then
    ((1 - x.2.1) * (1 - x.2.2) * (X 1 d - X 0 d) + (1 + x.2.1) * (1 - x.2.2) * (X 3 d - X 2 d) +
      (1 - x.2.1) * (1 + x.2.2) * (X 5 d - X 4 d) + (1 + x.2.1) * (1 + x.2.2) * (X 7 d - X 6 d)) / 8
  else if i = 1 then
    ((1 - x.1) * (1 - x.2.2) * (X 2 d - X 0 d) + (1 + x.1) * (1 - x.2.2) * (X 3 d - X 1 d) +
      (1 - x.1) * (1 + x.2.2) * (X 6 d - X 4 d) + (1 + x.1) * (1 + x.2.2) * (X 7 d - X 5 d)) / 8
  else
    ((1 - x.1) * (1 - x.2.1) * (X 4 d - X 0 d) + (1 + x.1) * (1 - x.2.1) * (X 5 d - X 1 d) +
      (1 - x.1) * (1 + x.2.1) * (X 6 d - X 2 d) + (1 + x.1) * (1 + x.2.1) * (X 7 d - X 3 d)) / 8

/-- Jacobian matrix `∂x_d/∂ξ_i` -/
noncomputable def hexJac (X : ℕ → ℕ → ℝ) (x : ℝ × ℝ × ℝ) : Matrix (Fin 3) (Fin 3) ℝ :=
  Matrix.of fun d i => hexDer X x d i

/-- Jacobian determinant -/
noncomputable def hexDet (X : ℕ → ℕ → ℝ) (x : ℝ × ℝ × ℝ) : ℝ := (hexJac X x).det

/-- `∂ξ_i/∂x_j` -/
noncomputable def hexInvJac (X : ℕ → ℕ → ℝ) (x : ℝ × ℝ × ℝ) (i j : ℕ) : ℝ :=
  if h : i < 3 ∧ j < 3 then (hexJac X x)⁻¹ ⟨i, h.1⟩ ⟨j, h.2⟩ else 0

/-- point with face coordinates `(s, t)` of face `f` of the reference cube -/
def facePoint (f : ℕ) (s : ℝ × ℝ) : ℝ × ℝ × ℝ :=
  if f = 0 then (s.2, s.1, -1) else if f = 1 then (s.1, -1, s.2) else if f = 2 then (1, s.1, s.2)
  else if f = 3 then (-s.1, 1, s.2) else if f = 4 then (-1, -s.1, s.2) else (s.1, s.2, 1)

/-- the corner of face `f` at face coordinates `(-1,-1)`, `(1,-1)`, `(-1,1)`, `(1,1)` (`k = 0,1,2,3`) -/
def faceCorner (f k : ℕ) : ℕ :=
  if f = 0 then [0, 2, 1, 3].getD k 0 else if f = 1 then [0, 1, 4, 5].getD k 0
  else if f = 2 then [1, 3, 5, 7].getD k 0 else if f = 3 then [3, 2, 7, 6].getD k 0
  else if f = 4 then [2, 0, 6, 4].getD k 0 else [4, 5, 6, 7].getD k 0

/-- derivative of the face in the first face coordinate -/
noncomputable def faceTan1 (X : ℕ → ℕ → ℝ) (f : ℕ) (s : ℝ × ℝ) (d : ℕ) : ℝ :=
  ((1 - s.2) * (X (faceCorner f 1) d - X (faceCorner f 0) d) +
    (1 + s.2) * (X (faceCorner f 3) d - X (faceCorner f 2) d)) / 4

/-- derivative of the face in the second face coordinate -/
noncomputable def faceTan2 (X : ℕ → ℕ → ℝ) (f : ℕ) (s : ℝ × ℝ) (d : ℕ) : ℝ :=
  ((1 - s.1) * (X (faceCorner f 2) d - X (faceCorner f 0) d) +
    (1 + s.1) * (X (faceCorner f 3) d - X (faceCorner f 1) d)) / 4

/-- outward normal of face `f` at the face point `s`, with the area element of the face: the cross
product of the two derivatives -/
noncomputable def faceNormal (X : ℕ → ℕ → ℝ) (f : ℕ) (s : ℝ × ℝ) (j : ℕ) : ℝ :=
  faceTan1 X f s ((j + 1) % 3) * faceTan2 X f s ((j + 2) % 3) -
    faceTan1 X f s ((j + 2) % 3) * faceTan2 X f s ((j + 1) % 3)

/-- face `f` is a parallelogram -/
def FlatFace (X : ℕ → ℕ → ℝ) (f : ℕ) : Prop :=
  ∀ d < 3, X (faceCorner f 0) d + X (faceCorner f 3) d = X (faceCorner f 1) d + X (faceCorner f 2) d

/-- basis function `b` of order `p` -/
noncomputable def phi3 (t : Fam) (p b : ℕ) (x : ℝ × ℝ × ℝ) : ℝ :=
  (famPoly t p (b % (p + 1))).eval x.1 * (famPoly t p (b / (p + 1) % (p + 1))).eval x.2.1 *
    (famPoly t p (b / ((p + 1) * (p + 1)))).eval x.2.2

/-- its derivative in direction `i` -/
noncomputable def dphi3 (t : Fam) (p b i : ℕ) (x : ℝ × ℝ × ℝ) : ℝ :=
  if i = 0 then
    (derivative (famPoly t p (b % (p + 1)))).eval x.1 * (famPoly t p (b / (p + 1) % (p + 1))).eval x.2.1 *
      (famPoly t p (b / ((p + 1) * (p + 1)))).eval x.2.2
  else if i = 1 then
    (famPoly t p (b % (p + 1))).eval x.1 * (derivative (famPoly t p (b / (p + 1) % (p + 1)))).eval x.2.1 *
      (famPoly t p (b / ((p + 1) * (p + 1)))).eval x.2.2
  else
    (famPoly t p (b % (p + 1))).eval x.1 * (famPoly t p (b / (p + 1) % (p + 1))).eval x.2.1 *
      (derivative (famPoly t p (b / ((p + 1) * (p + 1))))).eval x.2.2

/-! ### discretisation -/

/-- point `q` of the tensor rule of order `2 o + 3` in the cube (`o + 2` points per direction) -/
noncomputable def volPt3 (o q : ℕ) : ℝ × ℝ × ℝ :=
  (glX (2 * o + 3) (q % (o + 2)), glX (2 * o + 3) (q / (o + 2) % (o + 2)),
    glX (2 * o + 3) (q / ((o + 2) * (o + 2))))

/-- its weight -/
noncomputable def wt3 (o q : ℕ) : ℝ :=
  glW (2 * o + 3) (q % (o + 2)) * glW (2 * o + 3) (q / (o + 2) % (o + 2)) *
    glW (2 * o + 3) (q / ((o + 2) * (o + 2)))

/-- point `q` of the tensor rule of order `2 o + 3` in the square -/
noncomputable def facePt2 (o q : ℕ) : ℝ × ℝ :=
  (glX (2 * o + 3) (q % (o + 2)), glX (2 * o + 3) (q / (o + 2)))

/-- its weight -/
noncomputable def wt2 (o q : ℕ) : ℝ := glW (2 * o + 3) (q % (o + 2)) * glW (2 * o + 3) (q / (o + 2))

/-- position (row, column) in orientation 0 of the point at row `r`, column `c` of orientation `o` on an
`n × n` face: the symmetries of the square, 0-3 rotations, 4-7 reflections -/
def turnIndex (n o r c : ℕ) : ℕ × ℕ :=
  if o = 0 then (r, c) else if o = 1 then (c, n - 1 - r) else if o = 2 then (n - 1 - r, n - 1 - c)
  else if o = 3 then (n - 1 - c, r) else if o = 4 then (c, r) else if o = 5 then (r, n - 1 - c)
  else if o = 6 then (n - 1 - c, n - 1 - r) else (n - 1 - r, c)

/-- the same symmetry of the square, on face coordinates -/
def turn (o : ℕ) (s : ℝ × ℝ) : ℝ × ℝ :=
  if o = 0 then s else if o = 1 then (-s.2, s.1) else if o = 2 then (-s.1, -s.2)
  else if o = 3 then (s.2, -s.1) else if o = 4 then (s.2, s.1) else if o = 5 then (-s.1, s.2)
  else if o = 6 then (-s.2, -s.1) else (s.1, -s.2)

/-- points, weights and basis tables for order `p`: rules of order `2p+3` (`p+2` points per direction)
in the elements and on the faces -/
noncomputable def hexDisc (t : Fam) (p ns : ℕ) (volFlux : (ℕ → ℝ) → ℕ → ℝ)
    (numFlux : (ℕ → ℝ) → (ℕ → ℝ) → (ℕ → ℝ) → ℕ → ℝ) : Disc ℝ where
  dim := 3
  ns := ns
  nb := (p + 1) * (p + 1) * (p + 1)
  nq := (p + 2) * (p + 2) * (p + 2)
  nface := 6
  nqf := (p + 2) * (p + 2)
  volBasis := fun q b => phi3 t p b (volPt3 p q)
  volGrad := fun q b i => dphi3 t p b i (volPt3 p q)
  volWts := wt3 p
  faceBasis := fun f q b => phi3 t p b (facePoint f (facePt2 p q))
  faceWts := wt2 p
  ptsOrder := fun o i => (turnIndex (p + 2) o (i / (p + 2)) (i % (p + 2))).1 * (p + 2) +
    (turnIndex (p + 2) o (i / (p + 2)) (i % (p + 2))).2
  volFlux := volFlux
  numFlux := numFlux

/-- mass matrix of the element with corners `X`, by the rule of order `2 o + 3` -/
noncomputable def hexMass (t : Fam) (p o : ℕ) (X : ℕ → ℕ → ℝ) (a b : ℕ) : ℝ :=
  ∑ q ∈ range ((o + 2) * (o + 2) * (o + 2)),
    wt3 o q * hexDet X (volPt3 o q) * (phi3 t p a (volPt3 o q) * phi3 t p b (volPt3 o q))

/-- inverse mass matrix of the element with corners `X`; the rule has order `4p+3` -/
noncomputable def hexInvMass (t : Fam) (p : ℕ) (X : ℕ → ℕ → ℝ) (i j : ℕ) : ℝ :=
  if h : i < (p + 1) * (p + 1) * (p + 1) ∧ j < (p + 1) * (p + 1) * (p + 1) then
    (Matrix.of fun a b : Fin ((p + 1) * (p + 1) * (p + 1)) => hexMass t p (2 * p) X a b)⁻¹ ⟨i, h.1⟩ ⟨j, h.2⟩
  else 0

/-- Geometry of the mesh, by global element and face numbers.  The normal of a face at point `q` is the
outward normal of its left element - with the two face coordinates of the point exchanged, which only
matters on faces that are not parallelograms (`faceNormal_flat` below; property C17). -/
noncomputable def hexGeom (t : Fam) (p : ℕ) (m : GMesh ℝ) : Geom ℝ where
  djac := fun e q => hexDet (fileCoords m e) (volPt3 p q)
  ijac := fun e q i j => hexInvJac (fileCoords m e) (volPt3 p q) i j
  iMM := fun e i j => hexInvMass t p (fileCoords m e) i j
  normals := fun g q j => faceNormal (fileCoords m (faceAt m g).elemL) (faceAt m g).faceL
    ((facePt2 p q).2, (facePt2 p q).1) j

/-- projection of the initial condition `ic`; the rule has order `4 max(p,1) + 3` -/
noncomputable def hexInit (t : Fam) (p : ℕ) (m : GMesh ℝ) (ic : (ℕ → ℝ) → ℕ → ℝ) : Coeffs ℝ :=
  fun e b s =>
    let o := 2 * max p 1
    ∑ j ∈ range ((p + 1) * (p + 1) * (p + 1)), hexInvMass t p (fileCoords m e) b j *
      ∑ q ∈ range ((o + 2) * (o + 2) * (o + 2)),
        wt3 o q * hexDet (fileCoords m e) (volPt3 o q) * (phi3 t p j (volPt3 o q) *
          ic (fun d => if d < 3 then hexMap (fileCoords m e) (volPt3 o q) d else 0) s)

/-! ### meshes -/

/-- A mesh of trilinear hexahedra: eight nodes per element; every element map is orientation preserving;
a side (element, face number) belongs to at most one face; the two sides of a face, each seen with its
orientation, are the same surface up to a translation (periodic meshes), one traversed as a rotation of
its own numbering and the other as a reflection. -/
structure HexMesh (m : GMesh ℝ) : Prop where
  npe : m.npe = 8
  det : ∀ e < m.numElems, ∀ ξ η ζ : ℝ, -1 < ξ → ξ < 1 → -1 < η → η < 1 → -1 < ζ → ζ < 1 →
    0 < hexDet (fileCoords m e) (ξ, η, ζ)
  faceL : ∀ f ∈ m.faces, f.faceL < 6 ∧ f.orientL < 8
  faceR : ∀ f ∈ m.faces, f.faceR < 6 ∧ f.orientR < 8
  sides : (m.faces.flatMap fun f => [(f.elemL, f.faceL), (f.elemR, f.faceR)]).Nodup
  opposite : ∀ f ∈ m.faces, (f.orientL < 4 ↔ 4 ≤ f.orientR)
  match_ : ∀ f ∈ m.faces, ∃ shift : ℕ → ℝ, ∀ s : ℝ × ℝ, ∀ d < 3,
    hexMap (fileCoords m f.elemL) (facePoint f.faceL (turn f.orientL s)) d =
      hexMap (fileCoords m f.elemR) (facePoint f.faceR (turn f.orientR s)) d + shift d

/-- every face between elements of different parts is a parallelogram (always true with one part) -/
def CutFlat (m : GMesh ℝ) (part : List ℕ) : Prop :=
  ∀ f ∈ m.faces, part[f.elemL]? ≠ part[f.elemR]? → FlatFace (fileCoords m f.elemL) f.faceL

theorem hasDerivAt_affine {a b x : ℝ} {f : ℝ → ℝ} (hf : ∀ s, f s = a + s * b) : HasDerivAt f b x := by
  have : f = fun s => a + s * b := funext hf
  rw [this]; exact hasDerivAt_lin _ _ _

/-- `hexDer` are the derivatives of the map. -/
theorem hexMap_derivs (X : ℕ → ℕ → ℝ) (ξ η ζ : ℝ) (d : ℕ) :
    HasDerivAt (fun s => hexMap X (s, η, ζ) d) (hexDer X (ξ, η, ζ) d 0) ξ ∧
    HasDerivAt (fun s => hexMap X (ξ, s, ζ) d) (hexDer X (ξ, η, ζ) d 1) η ∧
    HasDerivAt (fun s => hexMap X (ξ, η, s) d) (hexDer X (ξ, η, ζ) d 2) ζ := by
  refine ⟨hasDerivAt_affine (a := hexMap X (0, η, ζ) d) fun s => ?_,
    hasDerivAt_affine (a := hexMap X (ξ, 0, ζ) d) fun s => ?_,
    hasDerivAt_affine (a := hexMap X (ξ, η, 0) d) fun s => ?_⟩ <;>
    simp [hexMap, hexDer] <;> ring

/-- `faceTan1`, `faceTan2` are the derivatives of the face. -/
theorem face_derivs (X : ℕ → ℕ → ℝ) (f : ℕ) (hf : f < 6) (s t : ℝ) (d : ℕ) :
    HasDerivAt (fun u => hexMap X (facePoint f (u, t)) d) (faceTan1 X f (s, t) d) s ∧
    HasDerivAt (fun u => hexMap X (facePoint f (s, u)) d) (faceTan2 X f (s, t) d) t := by
  have hF : f = 0 ∨ f = 1 ∨ f = 2 ∨ f = 3 ∨ f = 4 ∨ f = 5 := by omega
  refine ⟨hasDerivAt_affine (a := hexMap X (facePoint f (0, t)) d) fun u => ?_,
    hasDerivAt_affine (a := hexMap X (facePoint f (s, 0)) d) fun u => ?_⟩ <;>
    rcases hF with rfl | rfl | rfl | rfl | rfl | rfl <;>
      simp [hexMap, facePoint, faceTan1, faceTan2, faceCorner] <;> ring

/-- The normal points out of the element: it is the cofactor of the Jacobian matrix of the element in the
direction that leaves the cube through the face (Nanson's formula). -/
theorem faceNormal_outward (X : ℕ → ℕ → ℝ) (f : ℕ) (hf : f < 6) (s : ℝ × ℝ) (j : Fin 3) :
    faceNormal X f s j = (if f = 0 ∨ f = 1 ∨ f = 4 then -1 else 1) *
      (hexJac X (facePoint f s)).adjugate ([2, 1, 0, 1, 0, 2].getD f 0) j := by
  have hF : f = 0 ∨ f = 1 ∨ f = 2 ∨ f = 3 ∨ f = 4 ∨ f = 5 := by omega
  rw [Matrix.adjugate_fin_three]
  rcases hF with rfl | rfl | rfl | rfl | rfl | rfl <;> fin_cases j <;>
    simp [faceNormal, hexJac, hexDer, facePoint, faceTan1, faceTan2, faceCorner] <;> ring

/-- On a parallelogram the normal is the same at every point. -/
theorem faceNormal_flat (X : ℕ → ℕ → ℝ) (f : ℕ) (h : FlatFace X f) (s s' : ℝ × ℝ) (j : ℕ) :
    faceNormal X f s j = faceNormal X f s' j := by
  have key : ∀ (u : ℝ × ℝ), ∀ d < 3, faceTan1 X f u d = (X (faceCorner f 1) d - X (faceCorner f 0) d) / 2 ∧
      faceTan2 X f u d = (X (faceCorner f 2) d - X (faceCorner f 0) d) / 2 := by
    intro u d hd
    have e := h d hd
    have e1 : X (faceCorner f 3) d = X (faceCorner f 1) d + X (faceCorner f 2) d - X (faceCorner f 0) d := by
      linarith
    constructor
    · unfold faceTan1; rw [e1]; ring
    · unfold faceTan2; rw [e1]; ring
  unfold faceNormal
  rw [(key s _ (Nat.mod_lt _ (by omega))).1, (key s _ (Nat.mod_lt _ (by omega))).2,
    (key s _ (Nat.mod_lt _ (by omega))).1, (key s _ (Nat.mod_lt _ (by omega))).2,
    (key s' _ (Nat.mod_lt _ (by omega))).1, (key s' _ (Nat.mod_lt _ (by omega))).2,
    (key s' _ (Nat.mod_lt _ (by omega))).1, (key s' _ (Nat.mod_lt _ (by omega))).2]

end DG
