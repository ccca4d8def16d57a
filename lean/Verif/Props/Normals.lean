import Verif.Lemmas.Normals
import Mathlib.Analysis.Calculus.Deriv.Add
import Mathlib.Analysis.Calculus.Deriv.Mul
import Mathlib.Analysis.Calculus.Deriv.Polynomial
import Mathlib.Tactic.Linarith
import Mathlib.Tactic.LinearCombination
import Mathlib.Tactic.NormNum

/-! C17: face normals. -/
namespace DG
open Finset Polynomial

theorem hasDerivAt_ell (g c : ℕ) (x : ℝ) : HasDerivAt (fun s => ell g c s) (ell' g c x) x :=
  (lagPoly (nodesP g) c).hasDerivAt x

theorem hasDerivAt_physQuad (g : ℕ) (hg : 0 < g) (elem : ℕ → ℕ → ℝ) (face : ℕ) (hf : face < 4)
    (x : ℝ) (d : ℕ) (hd : d < 2) :
    HasDerivAt (fun s => physQuad g elem (quadPt face 0 s) d) (tanQuad g face elem x d) x := by
  have : (fun s => physQuad g elem (quadPt face 0 s) d) = fun s =>
      ∑ c ∈ range (g + 1), ell g c s * elem (quadNode g (quadFaceLattice face g c)) d := by
    funext s; exact physQuad_face g hg elem face hf s d hd
  rw [this]
  exact HasDerivAt.fun_sum fun c _ => (hasDerivAt_ell g c x).mul_const _

theorem hasDerivAt_physHex1 (g : ℕ) (hg : 0 < g) (elem : ℕ → ℕ → ℝ) (face : ℕ) (hf : face < 6)
    (a b : ℝ) (d : ℕ) (hd : d < 3) :
    HasDerivAt (fun s => physHex g elem (hexPt face 0 (s, b)) d) (tanHex1 g face elem a b d) a := by
  have : (fun s => physHex g elem (hexPt face 0 (s, b)) d) = fun s =>
      ∑ r ∈ range (g + 1), ∑ c ∈ range (g + 1),
        ell g c s * ell g r b * elem (hexNode g (hexFaceLattice face g c r)) d := by
    funext s; exact physHex_face g hg elem face hf s b d hd
  rw [this]
  exact HasDerivAt.fun_sum fun r _ => HasDerivAt.fun_sum fun c _ =>
    ((hasDerivAt_ell g c a).mul_const _).mul_const _

theorem hasDerivAt_physHex2 (g : ℕ) (hg : 0 < g) (elem : ℕ → ℕ → ℝ) (face : ℕ) (hf : face < 6)
    (a b : ℝ) (d : ℕ) (hd : d < 3) :
    HasDerivAt (fun t => physHex g elem (hexPt face 0 (a, t)) d) (tanHex2 g face elem a b d) b := by
  have : (fun t => physHex g elem (hexPt face 0 (a, t)) d) = fun t =>
      ∑ r ∈ range (g + 1), ∑ c ∈ range (g + 1),
        ell g c a * ell g r t * elem (hexNode g (hexFaceLattice face g c r)) d := by
    funext t; exact physHex_face g hg elem face hf a t d hd
  rw [this]
  exact HasDerivAt.fun_sum fun r _ => HasDerivAt.fun_sum fun c _ =>
    ((hasDerivAt_ell g r b).const_mul _).mul_const _

/-- **C17** (quadrilateral, any curved element).  For every geometric order `g ≥ 1`, face, node
coordinates and face point `x`: the normal is the tangent of the face at the image of that face
point (the derivative of the element map along the face), turned by a right angle clockwise and
multiplied by `sign`. -/
theorem C17_quad_normal (sign : ℝ) (g : ℕ) (hg : 0 < g) (face : ℕ) (hf : face < 4)
    (elem : ℕ → ℕ → ℝ) (x : ℝ) :
    ∃ (P : ℝ → ℝ × ℝ) (T : ℕ → ℝ), (∀ pts, pointsOnFaceQuad face 0 pts = some (pts.map P)) ∧
      (∀ d < 2, HasDerivAt (fun s => physQuad g elem (P s) d) (T d) x) ∧
      faceNormalQuad sign g face elem x = some (sign * T 1, - (sign * T 0)) :=
  ⟨quadPt face 0, tanQuad g face elem x, fun pts => pointsOnFaceQuad_eq face 0 hf pts,
    fun d hd => hasDerivAt_physQuad g hg elem face hf x d hd,
    faceNormalQuad_eq sign g hg face hf elem x⟩

/-- **C17** (hexahedron, any curved element).  The normal stored for the face point `(s, t)` is
`sign` times the cross product of the two face tangents — taken at the *transposed* face point
`(t, s)`. -/
theorem C17_hex_normal_transposed (sign : ℝ) (g : ℕ) (hg : 0 < g) (face : ℕ) (hf : face < 6)
    (elem : ℕ → ℕ → ℝ) (s t : ℝ) :
    ∃ (P : ℝ × ℝ → ℝ × ℝ × ℝ) (T1 T2 n : ℕ → ℝ),
      (∀ pts, pointsOnFaceHex face 0 pts = some (pts.map P)) ∧
      (∀ d < 3, HasDerivAt (fun a => physHex g elem (P (a, s)) d) (T1 d) t) ∧
      (∀ d < 3, HasDerivAt (fun b => physHex g elem (P (t, b)) d) (T2 d) s) ∧
      faceNormalHex sign g face elem (s, t) = some n ∧
      n 0 = sign * (T1 1 * T2 2 - T1 2 * T2 1) ∧
      n 1 = sign * (T1 2 * T2 0 - T1 0 * T2 2) ∧
      n 2 = sign * (T1 0 * T2 1 - T1 1 * T2 0) := by
  obtain ⟨n, h1, h2, h3, h4⟩ := faceNormalHex_eq sign g hg face hf elem s t
  exact ⟨hexPt face 0, tanHex1 g face elem t s, tanHex2 g face elem t s, n,
    fun pts => pointsOnFaceHex_eq face 0 hf pts,
    fun d hd => hasDerivAt_physHex1 g hg elem face hf t s d hd,
    fun d hd => hasDerivAt_physHex2 g hg elem face hf t s d hd, h1, h2, h3, h4⟩

/-- **C17** (sign).  Computing with the opposite sign negates the normal, for every element, face
and point. -/
theorem C17_sign_flips (sign : ℝ) (g : ℕ) (hg : 0 < g) (elem : ℕ → ℕ → ℝ) (x : ℝ) (p : ℝ × ℝ) :
    (∀ face < 4, ∃ a b, faceNormalQuad sign g face elem x = some (a, b) ∧
      faceNormalQuad (-sign) g face elem x = some (-a, -b)) ∧
    (∀ face < 6, ∃ n n', faceNormalHex sign g face elem p = some n ∧
      faceNormalHex (-sign) g face elem p = some n' ∧ ∀ d < 3, n' d = - n d) := by
  refine ⟨fun face hf => ?_, fun face hf => ?_⟩
  · refine ⟨_, _, faceNormalQuad_eq sign g hg face hf elem x, ?_⟩
    rw [faceNormalQuad_eq (-sign) g hg face hf elem x]
    congr 2 <;> ring
  · obtain ⟨s, t⟩ := p
    obtain ⟨n, h1, h2, h3, h4⟩ := faceNormalHex_eq sign g hg face hf elem s t
    obtain ⟨n', h1', h2', h3', h4'⟩ := faceNormalHex_eq (-sign) g hg face hf elem s t
    refine ⟨n, n', h1, h1', fun d hd => ?_⟩
    have : d = 0 ∨ d = 1 ∨ d = 2 := by omega
    rcases this with rfl | rfl | rfl
    · rw [h2, h2']; ring
    · rw [h3, h3']; ring
    · rw [h4, h4']; ring

/-! ### affine elements -/

/-- Specification: outward unit normals of the reference square (bottom, right, top, left). -/
def refNormalQuad (face : ℕ) : ℝ × ℝ :=
  match face with
  | 0 => (0, -1)
  | 1 => (1, 0)
  | 2 => (0, 1)
  | _ => (-1, 0)

/-- Specification: outward unit normals of the reference cube (bottom, front, right, back, left,
top). -/
def refNormalHex (face : ℕ) : ℝ × ℝ × ℝ :=
  match face with
  | 0 => (0, 0, -1)
  | 1 => (0, -1, 0)
  | 2 => (1, 0, 0)
  | 3 => (0, 1, 0)
  | 4 => (-1, 0, 0)
  | _ => (0, 0, 1)

/-- Specification: the nodes of the element are the images of the order-`g` lattice under the
affine map `c + ξ a + η b`. -/
def AffineQuad (g : ℕ) (elem : ℕ → ℕ → ℝ) (c a b : ℕ → ℝ) : Prop :=
  ∀ i ≤ g, ∀ j ≤ g, ∀ d < 2, elem (j * (g + 1) + i) d
    = c d + (-1 + 2 * (i : ℝ) / g) * a d + (-1 + 2 * (j : ℝ) / g) * b d

/-- Specification: same for `c + ξ a + η b + ζ e`. -/
def AffineHex (g : ℕ) (elem : ℕ → ℕ → ℝ) (c a b e : ℕ → ℝ) : Prop :=
  ∀ i ≤ g, ∀ j ≤ g, ∀ k ≤ g, ∀ d < 3, elem (k * ((g + 1) * (g + 1)) + j * (g + 1) + i) d
    = c d + (-1 + 2 * (i : ℝ) / g) * a d + (-1 + 2 * (j : ℝ) / g) * b d
      + (-1 + 2 * (k : ℝ) / g) * e d

theorem sum_ell_affine (g : ℕ) (hg : 0 < g) (x A B : ℝ) :
    ∑ i ∈ range (g + 1), ell g i x * (A + (-1 + 2 * (i : ℝ) / g) * B) = A + x * B := by
  have e : ∀ i : ℕ, ell g i x * (A + (-1 + 2 * (i : ℝ) / g) * B)
      = A * ell g i x + B * ((-1 + (i : ℝ) * (2 / (g : ℝ))) * ell g i x) := by
    intro i; ring
  simp only [e, Finset.sum_add_distrib, ← Finset.mul_sum]
  rw [sum_ell g hg, sum_node_ell g hg]; ring

theorem physQuad_affine (g : ℕ) (hg : 0 < g) (elem : ℕ → ℕ → ℝ) (c a b : ℕ → ℝ)
    (h : AffineQuad g elem c a b) (p : ℝ × ℝ) (d : ℕ) (hd : d < 2) :
    physQuad g elem p d = c d + p.1 * a d + p.2 * b d := by
  rw [physQuad_eq g hg elem p d hd]
  have inner : ∀ j ∈ range (g + 1), ∑ i ∈ range (g + 1),
      ell g i p.1 * ell g j p.2 * elem (j * (g + 1) + i) d
      = ell g j p.2 * ((c d + p.1 * a d) + (-1 + 2 * (j : ℝ) / g) * b d) := by
    intro j hj
    rw [Finset.mem_range] at hj
    have : ∀ i ∈ range (g + 1), ell g i p.1 * ell g j p.2 * elem (j * (g + 1) + i) d
        = ell g j p.2 * (ell g i p.1 *
          ((c d + (-1 + 2 * (j : ℝ) / g) * b d) + (-1 + 2 * (i : ℝ) / g) * a d)) := by
      intro i hi
      rw [Finset.mem_range] at hi
      rw [h i (by omega) j (by omega) d hd]; ring
    rw [Finset.sum_congr rfl this, ← Finset.mul_sum, sum_ell_affine g hg]; ring
  rw [Finset.sum_congr rfl inner, sum_ell_affine g hg]

theorem physHex_affine (g : ℕ) (hg : 0 < g) (elem : ℕ → ℕ → ℝ) (c a b e : ℕ → ℝ)
    (h : AffineHex g elem c a b e) (p : ℝ × ℝ × ℝ) (d : ℕ) (hd : d < 3) :
    physHex g elem p d = c d + p.1 * a d + p.2.1 * b d + p.2.2 * e d := by
  rw [physHex_eq g hg elem p d hd]
  have inner : ∀ k ∈ range (g + 1), ∑ j ∈ range (g + 1), ∑ i ∈ range (g + 1),
      ell g i p.1 * ell g j p.2.1 * ell g k p.2.2 * elem (hexNode g (i, j, k)) d
      = ell g k p.2.2 * ((c d + p.1 * a d + p.2.1 * b d) + (-1 + 2 * (k : ℝ) / g) * e d) := by
    intro k hk
    rw [Finset.mem_range] at hk
    have in2 : ∀ j ∈ range (g + 1), ∑ i ∈ range (g + 1),
        ell g i p.1 * ell g j p.2.1 * ell g k p.2.2 * elem (hexNode g (i, j, k)) d
        = ell g k p.2.2 * (ell g j p.2.1 * ((c d + p.1 * a d + (-1 + 2 * (k : ℝ) / g) * e d)
            + (-1 + 2 * (j : ℝ) / g) * b d)) := by
      intro j hj
      rw [Finset.mem_range] at hj
      have : ∀ i ∈ range (g + 1),
          ell g i p.1 * ell g j p.2.1 * ell g k p.2.2 * elem (hexNode g (i, j, k)) d
          = (ell g k p.2.2 * ell g j p.2.1) * (ell g i p.1 *
            ((c d + (-1 + 2 * (j : ℝ) / g) * b d + (-1 + 2 * (k : ℝ) / g) * e d)
              + (-1 + 2 * (i : ℝ) / g) * a d)) := by
        intro i hi
        rw [Finset.mem_range] at hi
        have := h i (by omega) j (by omega) k (by omega) d hd
        unfold hexNode
        simp only []
        rw [this]; ring
      rw [Finset.sum_congr rfl this, ← Finset.mul_sum, sum_ell_affine g hg]; ring
    rw [Finset.sum_congr rfl in2, ← Finset.mul_sum, sum_ell_affine g hg]; ring
  rw [Finset.sum_congr rfl inner, sum_ell_affine g hg]

theorem hasDerivAt_lin (A k x : ℝ) : HasDerivAt (fun s => A + s * k) k x := by
  have := ((hasDerivAt_id x).mul_const k).const_add A
  simpa using this

/-- tangents of an affine quadrilateral -/
theorem tanQuad_affine (g : ℕ) (hg : 0 < g) (elem : ℕ → ℕ → ℝ) (c a b : ℕ → ℝ)
    (h : AffineQuad g elem c a b) (face : ℕ) (hf : face < 4) (x : ℝ) (d : ℕ) (hd : d < 2) :
    tanQuad g face elem x d = - (refNormalQuad face).2 * a d + (refNormalQuad face).1 * b d := by
  refine (hasDerivAt_physQuad g hg elem face hf x d hd).unique ?_
  have e : (fun s => physQuad g elem (quadPt face 0 s) d)
      = fun s => c d + (quadPt face 0 s).1 * a d + (quadPt face 0 s).2 * b d := by
    funext s; exact physQuad_affine g hg elem c a b h _ d hd
  rw [e]
  have hF : face = 0 ∨ face = 1 ∨ face = 2 ∨ face = 3 := by omega
  rcases hF with rfl | rfl | rfl | rfl
  · have e1 : (fun s => c d + (quadPt 0 0 s).1 * a d + (quadPt 0 0 s).2 * b d)
        = fun s => (c d - b d) + s * (a d) := by
      funext s; rw [quadPt_0_0]; ring
    have e2 : - (refNormalQuad 0).2 * a d + (refNormalQuad 0).1 * b d = a d := by
      simp [refNormalQuad]
    rw [e1, e2]; exact hasDerivAt_lin _ _ _
  · have e1 : (fun s => c d + (quadPt 1 0 s).1 * a d + (quadPt 1 0 s).2 * b d)
        = fun s => (c d + a d) + s * (b d) := by
      funext s; rw [quadPt_1_0]; ring
    have e2 : - (refNormalQuad 1).2 * a d + (refNormalQuad 1).1 * b d = b d := by
      simp [refNormalQuad]
    rw [e1, e2]; exact hasDerivAt_lin _ _ _
  · have e1 : (fun s => c d + (quadPt 2 0 s).1 * a d + (quadPt 2 0 s).2 * b d)
        = fun s => (c d + b d) + s * (- a d) := by
      funext s; rw [quadPt_2_0]; ring
    have e2 : - (refNormalQuad 2).2 * a d + (refNormalQuad 2).1 * b d = - a d := by
      simp [refNormalQuad]
    rw [e1, e2]; exact hasDerivAt_lin _ _ _
  · have e1 : (fun s => c d + (quadPt 3 0 s).1 * a d + (quadPt 3 0 s).2 * b d)
        = fun s => (c d - a d) + s * (- b d) := by
      funext s; rw [quadPt_3_0]; ring
    have e2 : - (refNormalQuad 3).2 * a d + (refNormalQuad 3).1 * b d = - b d := by
      simp [refNormalQuad]
    rw [e1, e2]; exact hasDerivAt_lin _ _ _

/-- **C17** (affine quadrilateral).  For an element that is the image of the lattice under
`X(ξ,η) = c + ξ a + η b` with Jacobian determinant `det = a₀b₁ - a₁b₀`: on every face and at every
face point the normal is `sign` times the cofactor (Nanson) normal, i.e. `Jᵀ n = sign · det · N`
with `N` the outward normal of the reference face; and for `sign = 1`, `det > 0` it points outwards:
its product with the vector from any interior point to any point of the face is positive. -/
theorem C17_quad_affine (g : ℕ) (hg : 0 < g) (elem : ℕ → ℕ → ℝ) (c a b : ℕ → ℝ)
    (h : AffineQuad g elem c a b) (face : ℕ) (hf : face < 4) (sign x : ℝ) :
    ∃ n0 n1, faceNormalQuad sign g face elem x = some (n0, n1) ∧
      a 0 * n0 + a 1 * n1 = sign * (a 0 * b 1 - a 1 * b 0) * (refNormalQuad face).1 ∧
      b 0 * n0 + b 1 * n1 = sign * (a 0 * b 1 - a 1 * b 0) * (refNormalQuad face).2 ∧
      (sign = 1 → 0 < a 0 * b 1 - a 1 * b 0 → ∀ q r : ℝ × ℝ, OnSideQuad face q →
        (-1 < r.1 ∧ r.1 < 1 ∧ -1 < r.2 ∧ r.2 < 1) →
        0 < n0 * (physQuad g elem q 0 - physQuad g elem r 0)
          + n1 * (physQuad g elem q 1 - physQuad g elem r 1)) := by
  refine ⟨_, _, faceNormalQuad_eq sign g hg face hf elem x, ?_, ?_, ?_⟩
  · rw [tanQuad_affine g hg elem c a b h face hf x 0 (by omega),
      tanQuad_affine g hg elem c a b h face hf x 1 (by omega)]; ring
  · rw [tanQuad_affine g hg elem c a b h face hf x 0 (by omega),
      tanQuad_affine g hg elem c a b h face hf x 1 (by omega)]; ring
  · intro hs hdet q r hq ⟨r1, r2, r3, r4⟩
    subst hs
    rw [tanQuad_affine g hg elem c a b h face hf x 0 (by omega),
      tanQuad_affine g hg elem c a b h face hf x 1 (by omega)]
    simp only [physQuad_affine g hg elem c a b h _ 0 (by omega),
      physQuad_affine g hg elem c a b h _ 1 (by omega)]
    have key : 0 < (refNormalQuad face).1 * (q.1 - r.1) + (refNormalQuad face).2 * (q.2 - r.2) := by
      have hF : face = 0 ∨ face = 1 ∨ face = 2 ∨ face = 3 := by omega
      rcases hF with rfl | rfl | rfl | rfl <;> simp only [OnSideQuad] at hq <;>
        simp only [refNormalQuad] <;> linarith
    have := mul_pos hdet key
    nlinarith [this]

/-- **C17** (closed element).  The normals of the four faces of an affine quadrilateral add up to
zero, whichever face points they are taken at. -/
theorem C17_quad_closed (g : ℕ) (hg : 0 < g) (elem : ℕ → ℕ → ℝ) (c a b : ℕ → ℝ)
    (h : AffineQuad g elem c a b) (sign : ℝ) (x : ℕ → ℝ) :
    ∃ n : ℕ → ℝ × ℝ, (∀ face < 4, faceNormalQuad sign g face elem (x face) = some (n face)) ∧
      n 0 + n 1 + n 2 + n 3 = 0 := by
  refine ⟨fun f => (sign * tanQuad g f elem (x f) 1, - (sign * tanQuad g f elem (x f) 0)),
    fun f hf => faceNormalQuad_eq sign g hg f hf elem _, ?_⟩
  simp only [tanQuad_affine g hg elem c a b h 0 (by omega), tanQuad_affine g hg elem c a b h 1 (by omega),
    tanQuad_affine g hg elem c a b h 2 (by omega), tanQuad_affine g hg elem c a b h 3 (by omega),
    show (0:ℕ) < 2 by omega, show (1:ℕ) < 2 by omega]
  ext <;> simp [refNormalQuad] <;> ring

/-- reference tangents of the faces of the cube -/
def refTan1 (face : ℕ) : ℝ × ℝ × ℝ :=
  match face with
  | 0 => (0, 1, 0)
  | 1 => (1, 0, 0)
  | 2 => (0, 1, 0)
  | 3 => (-1, 0, 0)
  | 4 => (0, -1, 0)
  | _ => (1, 0, 0)
def refTan2 (face : ℕ) : ℝ × ℝ × ℝ :=
  match face with
  | 0 => (1, 0, 0)
  | 1 => (0, 0, 1)
  | 2 => (0, 0, 1)
  | 3 => (0, 0, 1)
  | 4 => (0, 0, 1)
  | _ => (0, 1, 0)

theorem hexPt_lin (face : ℕ) (hf : face < 6) (s t : ℝ) :
    (hexPt face 0 (s, t)).1 = (refNormalHex face).1 + s * (refTan1 face).1 + t * (refTan2 face).1 ∧
    (hexPt face 0 (s, t)).2.1
      = (refNormalHex face).2.1 + s * (refTan1 face).2.1 + t * (refTan2 face).2.1 ∧
    (hexPt face 0 (s, t)).2.2
      = (refNormalHex face).2.2 + s * (refTan1 face).2.2 + t * (refTan2 face).2.2 := by
  have hF : face = 0 ∨ face = 1 ∨ face = 2 ∨ face = 3 ∨ face = 4 ∨ face = 5 := by omega
  rcases hF with rfl | rfl | rfl | rfl | rfl | rfl <;>
    simp [hexPt_0_0, hexPt_1_0, hexPt_2_0, hexPt_3_0, hexPt_4_0, hexPt_5_0, refNormalHex, refTan1,
      refTan2]

theorem tanHex_affine (g : ℕ) (hg : 0 < g) (elem : ℕ → ℕ → ℝ) (c a b e : ℕ → ℝ)
    (h : AffineHex g elem c a b e) (face : ℕ) (hf : face < 6) (s t : ℝ) (d : ℕ) (hd : d < 3) :
    tanHex1 g face elem s t d
      = (refTan1 face).1 * a d + (refTan1 face).2.1 * b d + (refTan1 face).2.2 * e d ∧
    tanHex2 g face elem s t d
      = (refTan2 face).1 * a d + (refTan2 face).2.1 * b d + (refTan2 face).2.2 * e d := by
  constructor
  · refine (hasDerivAt_physHex1 g hg elem face hf s t d hd).unique ?_
    have e1 : (fun s => physHex g elem (hexPt face 0 (s, t)) d)
        = fun s => (c d + ((refNormalHex face).1 + t * (refTan2 face).1) * a d
            + ((refNormalHex face).2.1 + t * (refTan2 face).2.1) * b d
            + ((refNormalHex face).2.2 + t * (refTan2 face).2.2) * e d)
          + s * ((refTan1 face).1 * a d + (refTan1 face).2.1 * b d + (refTan1 face).2.2 * e d) := by
      funext s
      rw [physHex_affine g hg elem c a b e h _ d hd]
      obtain ⟨h1, h2, h3⟩ := hexPt_lin face hf s t
      rw [h1, h2, h3]; ring
    rw [e1]; exact hasDerivAt_lin _ _ _
  · refine (hasDerivAt_physHex2 g hg elem face hf s t d hd).unique ?_
    have e1 : (fun t => physHex g elem (hexPt face 0 (s, t)) d)
        = fun t => (c d + ((refNormalHex face).1 + s * (refTan1 face).1) * a d
            + ((refNormalHex face).2.1 + s * (refTan1 face).2.1) * b d
            + ((refNormalHex face).2.2 + s * (refTan1 face).2.2) * e d)
          + t * ((refTan2 face).1 * a d + (refTan2 face).2.1 * b d + (refTan2 face).2.2 * e d) := by
      funext t
      rw [physHex_affine g hg elem c a b e h _ d hd]
      obtain ⟨h1, h2, h3⟩ := hexPt_lin face hf s t
      rw [h1, h2, h3]; ring
    rw [e1]; exact hasDerivAt_lin _ _ _

/-- Jacobian determinant of `c + ξ a + η b + ζ e` -/
def det3 (a b e : ℕ → ℝ) : ℝ :=
  a 0 * (b 1 * e 2 - b 2 * e 1) + a 1 * (b 2 * e 0 - b 0 * e 2) + a 2 * (b 0 * e 1 - b 1 * e 0)

theorem refTan_cross (face : ℕ) (hf : face < 6) :
    (refNormalHex face).1 = (refTan1 face).2.1 * (refTan2 face).2.2
      - (refTan1 face).2.2 * (refTan2 face).2.1 ∧
    (refNormalHex face).2.1 = (refTan1 face).2.2 * (refTan2 face).1
      - (refTan1 face).1 * (refTan2 face).2.2 ∧
    (refNormalHex face).2.2 = (refTan1 face).1 * (refTan2 face).2.1
      - (refTan1 face).2.1 * (refTan2 face).1 := by
  have hF : face = 0 ∨ face = 1 ∨ face = 2 ∨ face = 3 ∨ face = 4 ∨ face = 5 := by omega
  rcases hF with rfl | rfl | rfl | rfl | rfl | rfl <;> simp [refNormalHex, refTan1, refTan2]

/-- **C17** (affine hexahedron).  As `C17_quad_affine`: `Jᵀ n = sign · det · N` on every face and at
every face point, and for `sign = 1`, `det > 0` the normal points outwards. -/
theorem C17_hex_affine (g : ℕ) (hg : 0 < g) (elem : ℕ → ℕ → ℝ) (c a b e : ℕ → ℝ)
    (h : AffineHex g elem c a b e) (face : ℕ) (hf : face < 6) (sign : ℝ) (p : ℝ × ℝ) :
    ∃ n, faceNormalHex sign g face elem p = some n ∧
      a 0 * n 0 + a 1 * n 1 + a 2 * n 2 = sign * det3 a b e * (refNormalHex face).1 ∧
      b 0 * n 0 + b 1 * n 1 + b 2 * n 2 = sign * det3 a b e * (refNormalHex face).2.1 ∧
      e 0 * n 0 + e 1 * n 1 + e 2 * n 2 = sign * det3 a b e * (refNormalHex face).2.2 ∧
      (sign = 1 → 0 < det3 a b e → ∀ q r : ℝ × ℝ × ℝ, OnSideHex face q →
        (-1 < r.1 ∧ r.1 < 1 ∧ -1 < r.2.1 ∧ r.2.1 < 1 ∧ -1 < r.2.2 ∧ r.2.2 < 1) →
        0 < n 0 * (physHex g elem q 0 - physHex g elem r 0)
          + n 1 * (physHex g elem q 1 - physHex g elem r 1)
          + n 2 * (physHex g elem q 2 - physHex g elem r 2)) := by
  obtain ⟨s, t⟩ := p
  obtain ⟨n, h1, h2, h3, h4⟩ := faceNormalHex_eq sign g hg face hf elem s t
  have T := tanHex_affine g hg elem c a b e h face hf t s
  rw [(T 1 (by omega)).1, (T 2 (by omega)).1, (T 1 (by omega)).2, (T 2 (by omega)).2] at h2
  rw [(T 2 (by omega)).1, (T 0 (by omega)).1, (T 0 (by omega)).2, (T 2 (by omega)).2] at h3
  rw [(T 0 (by omega)).1, (T 1 (by omega)).1, (T 1 (by omega)).2, (T 0 (by omega)).2] at h4
  obtain ⟨c1, c2, c3⟩ := refTan_cross face hf
  have A1 : a 0 * n 0 + a 1 * n 1 + a 2 * n 2 = sign * det3 a b e * (refNormalHex face).1 := by
    rw [h2, h3, h4, c1, det3]; ring
  have A2 : b 0 * n 0 + b 1 * n 1 + b 2 * n 2 = sign * det3 a b e * (refNormalHex face).2.1 := by
    rw [h2, h3, h4, c2, det3]; ring
  have A3 : e 0 * n 0 + e 1 * n 1 + e 2 * n 2 = sign * det3 a b e * (refNormalHex face).2.2 := by
    rw [h2, h3, h4, c3, det3]; ring
  refine ⟨n, h1, A1, A2, A3, ?_⟩
  intro hs hdet q r hq ⟨r1, r2, r3, r4, r5, r6⟩
  subst hs
  simp only [physHex_affine g hg elem c a b e h _ 0 (by omega),
    physHex_affine g hg elem c a b e h _ 1 (by omega), physHex_affine g hg elem c a b e h _ 2 (by omega)]
  have key : 0 < (refNormalHex face).1 * (q.1 - r.1) + (refNormalHex face).2.1 * (q.2.1 - r.2.1)
      + (refNormalHex face).2.2 * (q.2.2 - r.2.2) := by
    have hF : face = 0 ∨ face = 1 ∨ face = 2 ∨ face = 3 ∨ face = 4 ∨ face = 5 := by omega
    rcases hF with rfl | rfl | rfl | rfl | rfl | rfl <;> simp only [OnSideHex] at hq <;>
      simp only [refNormalHex] <;> linarith
  have hpos := mul_pos hdet key
  have e : n 0 * (c 0 + q.1 * a 0 + q.2.1 * b 0 + q.2.2 * e 0
        - (c 0 + r.1 * a 0 + r.2.1 * b 0 + r.2.2 * e 0))
      + n 1 * (c 1 + q.1 * a 1 + q.2.1 * b 1 + q.2.2 * e 1
        - (c 1 + r.1 * a 1 + r.2.1 * b 1 + r.2.2 * e 1))
      + n 2 * (c 2 + q.1 * a 2 + q.2.1 * b 2 + q.2.2 * e 2
        - (c 2 + r.1 * a 2 + r.2.1 * b 2 + r.2.2 * e 2))
      = det3 a b e * ((refNormalHex face).1 * (q.1 - r.1)
        + (refNormalHex face).2.1 * (q.2.1 - r.2.1) + (refNormalHex face).2.2 * (q.2.2 - r.2.2)) := by
    linear_combination (q.1 - r.1) * A1 + (q.2.1 - r.2.1) * A2 + (q.2.2 - r.2.2) * A3
  rw [e]; exact hpos

/-- **C17** (closed element).  The normals of the six faces of an affine hexahedron add up to
zero, whichever face points they are taken at. -/
theorem C17_hex_closed (g : ℕ) (hg : 0 < g) (elem : ℕ → ℕ → ℝ) (c a b e : ℕ → ℝ)
    (h : AffineHex g elem c a b e) (sign : ℝ) (p : ℕ → ℝ × ℝ) :
    ∃ n : ℕ → ℕ → ℝ, (∀ face < 6, faceNormalHex sign g face elem (p face) = some (n face)) ∧
      ∀ d < 3, n 0 d + n 1 d + n 2 d + n 3 d + n 4 d + n 5 d = 0 := by
  have H := fun f (hf : f < 6) => faceNormalHex_eq sign g hg f hf elem (p f).1 (p f).2
  choose! n h1 h2 using H
  refine ⟨n, h1, ?_⟩
  have T := fun f (hf : f < 6) => tanHex_affine g hg elem c a b e h f hf (p f).2 (p f).1
  intro d hd
  have hD : d = 0 ∨ d = 1 ∨ d = 2 := by omega
  have e0 := h2 0 (by omega)
  have e1 := h2 1 (by omega)
  have e2 := h2 2 (by omega)
  have e3 := h2 3 (by omega)
  have e4 := h2 4 (by omega)
  have e5 := h2 5 (by omega)
  simp only [fun d hd => (T 0 (by omega) d hd).1, fun d hd => (T 0 (by omega) d hd).2,
    fun d hd => (T 1 (by omega) d hd).1, fun d hd => (T 1 (by omega) d hd).2,
    fun d hd => (T 2 (by omega) d hd).1, fun d hd => (T 2 (by omega) d hd).2,
    fun d hd => (T 3 (by omega) d hd).1, fun d hd => (T 3 (by omega) d hd).2,
    fun d hd => (T 4 (by omega) d hd).1, fun d hd => (T 4 (by omega) d hd).2,
    fun d hd => (T 5 (by omega) d hd).1, fun d hd => (T 5 (by omega) d hd).2,
    show (0:ℕ) < 3 by omega, show (1:ℕ) < 3 by omega, show (2:ℕ) < 3 by omega,
    refTan1, refTan2] at e0 e1 e2 e3 e4 e5
  rcases hD with rfl | rfl | rfl
  · rw [e0.1, e1.1, e2.1, e3.1, e4.1, e5.1]; ring
  · rw [e0.2.1, e1.2.1, e2.2.1, e3.2.1, e4.2.1, e5.2.1]; ring
  · rw [e0.2.2, e1.2.2, e2.2.2, e3.2.2, e4.2.2, e5.2.2]; ring

/-- non-vacuity: the reference square itself, and a sheared cell, are affine elements with positive
determinant -/
example : AffineQuad 2 (fun m d => if d = 0 then 3 + (-1 + 2 * ((m % 3 : ℕ) : ℝ) / (2 : ℕ))
    else 5 + (-1 + 2 * ((m % 3 : ℕ) : ℝ) / (2 : ℕ)) * (1/2) + (-1 + 2 * ((m / 3 : ℕ) : ℝ) / (2 : ℕ)))
    (fun d => if d = 0 then 3 else 5) (fun d => if d = 0 then 1 else 1/2)
    (fun d => if d = 0 then 0 else 1) := by
  intro i hi j hj d hd
  have e1 : (j * (2 + 1) + i) % 3 = i := by omega
  have e2 : (j * (2 + 1) + i) / 3 = j := by omega
  have hD : d = 0 ∨ d = 1 := by omega
  rcases hD with rfl | rfl
  · simp [e1]
  · simp [e1, e2]

end DG
