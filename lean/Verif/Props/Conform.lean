import Verif.Props.Normals
import Mathlib.Analysis.Calculus.Deriv.Comp
import Mathlib.Analysis.Calculus.Deriv.Pow

/-! C57: both sides of an interior face; C17 on faces that are not parallelograms. -/
namespace DG
open Finset Polynomial

/-! ### C57: the two traces are taken at the same physical points -/

/-- Specification: the two elements parametrise their common face identically when the left one is
seen with orientation `oL` and the right one with orientation `oR`. -/
def ConformQuad {K : Type} [Field K] [LinearOrder K] [IsStrictOrderedRing K] (gL : ℕ) (elL : ℕ → ℕ → K) (fL oL : ℕ)
    (gR : ℕ) (elR : ℕ → ℕ → K) (fR oR : ℕ) : Prop :=
  ∀ (x : K) (pL pR : K × K), pointsOnFaceQuad fL oL [x] = some [pL] →
    pointsOnFaceQuad fR oR [x] = some [pR] → ∀ d < 2, physQuad gL elL pL d = physQuad gR elR pR d

/-- Same for hexahedra. -/
def ConformHex {K : Type} [Field K] [LinearOrder K] [IsStrictOrderedRing K] (gL : ℕ) (elL : ℕ → ℕ → K) (fL oL : ℕ)
    (gR : ℕ) (elR : ℕ → ℕ → K) (fR oR : ℕ) : Prop :=
  ∀ (x : K × K) (pL pR : K × K × K), pointsOnFaceHex fL oL [x] = some [pL] →
    pointsOnFaceHex fR oR [x] = some [pR] → ∀ d < 3, physHex gL elL pL d = physHex gR elR pR d

theorem conformQuad_iff {K : Type} [Field K] [LinearOrder K] [IsStrictOrderedRing K] (gL : ℕ) (elL : ℕ → ℕ → K) (fL oL : ℕ)
    (gR : ℕ) (elR : ℕ → ℕ → K) (fR oR : ℕ) (hL : fL < 4) (hR : fR < 4) :
    ConformQuad gL elL fL oL gR elR fR oR ↔
      ∀ x, ∀ d < 2, physQuad gL elL (quadPt fL oL x) d = physQuad gR elR (quadPt fR oR x) d := by
  unfold ConformQuad
  simp [pointsOnFaceQuad_eq _ _ hL, pointsOnFaceQuad_eq _ _ hR]

theorem conformHex_iff {K : Type} [Field K] [LinearOrder K] [IsStrictOrderedRing K] (gL : ℕ) (elL : ℕ → ℕ → K) (fL oL : ℕ)
    (gR : ℕ) (elR : ℕ → ℕ → K) (fR oR : ℕ) (hL : fL < 6) (hR : fR < 6) :
    ConformHex gL elL fL oL gR elR fR oR ↔
      ∀ x, ∀ d < 3, physHex gL elL (hexPt fL oL x) d = physHex gR elR (hexPt fR oR x) d := by
  unfold ConformHex
  simp [pointsOnFaceHex_eq _ _ hL, pointsOnFaceHex_eq _ _ hR]

/-- **C57** (quadrilateral, points).  For any two elements that conform across a face with
orientations `oL`, `oR`, of any geometric orders, and any symmetric list of face points: the point
the left element reads for index `iq` and the point the right element reads for index `iq` are the
same physical point. -/
theorem C57_quad_same_points {K : Type} [Field K] [LinearOrder K]
    [IsStrictOrderedRing K] (gL gR fL fR oL oR : ℕ)
    (hL : fL < 4) (hR : fR < 4) (hoL : oL < 2) (hoR : oR < 2) (elL elR : ℕ → ℕ → K)
    (conf : ConformQuad gL elL fL oL gR elR fR oR)
    (n : ℕ) (x : ℕ → K) (sym : ∀ k < n, x (n - 1 - k) = - x k)
    (pts : List K) (hpts : pts = (List.range n).map x) (iq : ℕ) (hiq : iq < n) :
    ∃ pL pR, sidePointQuad fL oL pts iq = some pL ∧ sidePointQuad fR oR pts iq = some pR ∧
      ∀ d < 2, physQuad gL elL pL d = physQuad gR elR pR d := by
  rw [conformQuad_iff _ _ _ _ _ _ _ _ hL hR] at conf
  have hlen : pts.length = n := by rw [hpts]; simp
  have side : ∀ f o, f < 4 → o < 2 → sidePointQuad f o pts iq = some (quadPt f o (x iq)) := by
    intro f o hf ho
    obtain ⟨order, Po, P0, h1, h2, h3, h4⟩ := C14_quad_geometry f o hf ho n x sym pts hpts
      (List.replicate pts.length 0) (by simp [hlen])
    obtain ⟨j, p, a1, a2, a3⟩ := h4 iq hiq
    unfold sidePointQuad
    rw [hlen] at h1 ⊢
    rw [h1, h3]
    simp only [Option.bind_eq_bind, Option.bind_some, a1, Int.toNat_natCast, a3]
    rw [pointsOnFaceQuad_eq f o hf pts] at h2
    rw [← Option.some.inj h2, hpts] at a2
    simp [hiq] at a2
    rw [a2]
  exact ⟨_, _, side fL oL hL hoL, side fR oR hR hoR, fun d hd => conf (x iq) d hd⟩

/-- **C57** (hexahedron, points).  Same for hexahedra and their eight orientations. -/
theorem C57_hex_same_points {K : Type} [Field K] [LinearOrder K]
    [IsStrictOrderedRing K] (gL gR fL fR oL oR : ℕ)
    (hL : fL < 6) (hR : fR < 6) (hoL : oL < 8) (hoR : oR < 8) (elL elR : ℕ → ℕ → K)
    (conf : ConformHex gL elL fL oL gR elR fR oR)
    (n : ℕ) (hn : 0 < n) (x : ℕ → K) (sym : ∀ k < n, x (n - 1 - k) = - x k)
    (pts : List (K × K)) (hlen : pts.length = n * n)
    (hpts : ∀ r < n, ∀ c < n, pts[r * n + c]? = some (x c, x r)) (iq : ℕ) (hiq : iq < n * n) :
    ∃ pL pR, sidePointHex fL oL pts iq = some pL ∧ sidePointHex fR oR pts iq = some pR ∧
      ∀ d < 3, physHex gL elL pL d = physHex gR elR pR d := by
  rw [conformHex_iff _ _ _ _ _ _ _ _ hL hR] at conf
  have hi' : pts[iq]? = some (x (iq % n), x (iq / n)) := by
    obtain ⟨hr, hc⟩ := div_mod_lt hiq
    have := hpts _ hr _ hc
    rwa [Nat.mul_comm, Nat.div_add_mod] at this
  have side : ∀ f o, f < 6 → o < 8 →
      sidePointHex f o pts iq = some (hexPt f o (x (iq % n), x (iq / n))) := by
    intro f o hf ho
    obtain ⟨order, Po, P0, h1, h2, h3, h4⟩ := C14_hex_geometry f o hf ho n hn x sym pts hpts
      (List.replicate pts.length 0) (by simp [hlen])
    obtain ⟨j, p, a1, a2, a3⟩ := h4 iq hiq
    unfold sidePointHex
    rw [hlen] at h1 ⊢
    rw [h1, h3]
    simp only [Option.bind_eq_bind, Option.bind_some, a1, Int.toNat_natCast, a3]
    rw [pointsOnFaceHex_eq f o hf pts] at h2
    rw [← Option.some.inj h2] at a2
    simp [hi'] at a2
    rw [a2]
  exact ⟨_, _, side fL oL hL hoL, side fR oR hR hoR, fun d hd => conf _ d hd⟩

section nodes
variable {K : Type} [Field K] [LinearOrder K] [IsStrictOrderedRing K]

/-- **C57** (quadrilateral, meshes).  Two elements of the same geometric order that list the same
coordinates for the nodes of the face, in opposite order, conform with orientations 0 and 1. -/
theorem C57_quad_conforming_nodes (g : ℕ) (hg : 0 < g) (elL elR : ℕ → ℕ → K) (fL fR : ℕ)
    (hL : fL < 4) (hR : fR < 4) (nL nR : List ℤ)
    (hnL : faceNodesQuad fL g (List.replicate (nodesPerFaceQuad g) 0) = some nL)
    (hnR : faceNodesQuad fR g (List.replicate (nodesPerFaceQuad g) 0) = some nR)
    (same : ∀ t ≤ g, ∀ d < 2, extractNodes elL nL t d = extractNodes elR nR (g - t) d) :
    ConformQuad g elL fL 0 g elR fR 1 := by
  rw [conformQuad_iff _ _ _ _ _ _ _ _ hL hR]
  rw [faceNodesQuad_lattice fL g hL _ (by simp)] at hnL
  rw [faceNodesQuad_lattice fR g hR _ (by simp)] at hnR
  obtain rfl := Option.some.inj hnL
  obtain rfl := Option.some.inj hnR
  intro x d hd
  rw [quadPt_flip fR hR, physQuad_face g hg elL fL hL x d hd, physQuad_face g hg elR fR hR (-x) d hd,
    ← Finset.sum_range_reflect]
  refine Finset.sum_congr rfl fun c hc => ?_
  rw [Finset.mem_range] at hc
  have e : g + 1 - 1 - c = g - c := by omega
  have s := same (g - c) (by omega) d hd
  have e2 : g - (g - c) = c := by omega
  have h3 : g - c < g + 1 := by omega
  rw [e, ell_neg g hg c (by omega)]
  simp [extractNodes, hc, h3, e2] at s
  rw [s]

/-- the face of a hexahedron seen with orientation `o`: nodes are renumbered by the symmetry of the
orientation -/
theorem physHex_face_orient (g : ℕ) (hg : 0 < g) (elem : ℕ → ℕ → K) (face o : ℕ) (hf : face < 6)
    (ho : o < 8) (s t : K) (d : ℕ) (hd : d < 3) :
    physHex g elem (hexPt face o (s, t)) d
      = ∑ r ∈ range (g + 1), ∑ c ∈ range (g + 1), ell g c s * ell g r t *
          elem (hexNode g (hexFaceLattice face g (dihedral (g + 1) o r c).2
            (dihedral (g + 1) o r c).1)) d := by
  have refl1 : ∀ F : ℕ → K, ∑ i ∈ range (g + 1), F i = ∑ i ∈ range (g + 1), F (g - i) := by
    intro F
    rw [← Finset.sum_range_reflect]
    rfl
  rw [hexPt_orient face o hf ho]
  have hO : o = 0 ∨ o = 1 ∨ o = 2 ∨ o = 3 ∨ o = 4 ∨ o = 5 ∨ o = 6 ∨ o = 7 := by omega
  rcases hO with rfl | rfl | rfl | rfl | rfl | rfl | rfl | rfl <;>
    simp only [unorient, dihedral, Nat.add_sub_cancel] <;> rw [physHex_face g hg elem face hf _ _ d hd]
  · -- 1: (-t, s)
    rw [Finset.sum_comm, refl1]
    refine Finset.sum_congr rfl fun r hr => Finset.sum_congr rfl fun c hc => ?_
    rw [Finset.mem_range] at hr hc
    rw [ell_neg g hg _ (by omega), show g - (g - r) = r by omega]; ring
  · rw [refl1]
    refine Finset.sum_congr rfl fun r hr => ?_
    rw [refl1]
    refine Finset.sum_congr rfl fun c hc => ?_
    rw [Finset.mem_range] at hr hc
    rw [ell_neg g hg _ (by omega), ell_neg g hg _ (by omega), show g - (g - r) = r by omega,
      show g - (g - c) = c by omega]
  · -- 3: (t, -s)
    rw [Finset.sum_comm]
    refine Finset.sum_congr rfl fun r hr => ?_
    rw [refl1]
    refine Finset.sum_congr rfl fun c hc => ?_
    rw [Finset.mem_range] at hr hc
    rw [ell_neg g hg _ (by omega), show g - (g - c) = c by omega]; ring
  · rw [Finset.sum_comm]
    refine Finset.sum_congr rfl fun r hr => Finset.sum_congr rfl fun c hc => ?_
    ring
  · refine Finset.sum_congr rfl fun r hr => ?_
    rw [refl1]
    refine Finset.sum_congr rfl fun c hc => ?_
    rw [Finset.mem_range] at hr hc
    rw [ell_neg g hg _ (by omega), show g - (g - c) = c by omega]
  · rw [Finset.sum_comm, refl1]
    refine Finset.sum_congr rfl fun r hr => ?_
    rw [refl1]
    refine Finset.sum_congr rfl fun c hc => ?_
    rw [Finset.mem_range] at hr hc
    rw [ell_neg g hg _ (by omega), ell_neg g hg _ (by omega), show g - (g - r) = r by omega,
      show g - (g - c) = c by omega]; ring
  · rw [refl1]
    refine Finset.sum_congr rfl fun r hr => Finset.sum_congr rfl fun c hc => ?_
    rw [Finset.mem_range] at hr hc
    rw [ell_neg g hg _ (by omega), show g - (g - r) = r by omega]

/-- **C57** (hexahedron, meshes).  Let the right element list the nodes of the face in the order the
orientation `o` prescribes — node `i` of the left list is node `order_o(i)` of the right list, with
`order_o` the code's own reordering.  Then the two elements conform with orientations 0 and `o`. -/
theorem C57_hex_conforming_nodes (g : ℕ) (hg : 0 < g) (elL elR : ℕ → ℕ → K) (fL fR o : ℕ)
    (hL : fL < 6) (hR : fR < 6) (ho : o < 8) (nL nR order : List ℤ)
    (hnL : faceNodesHex fL g (List.replicate (nodesPerFaceHex g) 0) = some nL)
    (hnR : faceNodesHex fR g (List.replicate (nodesPerFaceHex g) 0) = some nR)
    (hord : ptsOrderHex o ((g + 1) * (g + 1)) (List.replicate ((g + 1) * (g + 1)) 0) = some order)
    (same : ∀ i < (g + 1) * (g + 1), ∀ j : ℕ, order[i]? = some (j : ℤ) →
      ∀ d < 3, extractNodes elL nL i d = extractNodes elR nR j d) :
    ConformHex g elL fL 0 g elR fR o := by
  rw [conformHex_iff _ _ _ _ _ _ _ _ hL hR]
  rintro ⟨s, t⟩ d hd
  rw [physHex_face g hg elL fL hL s t d hd, physHex_face_orient g hg elR fR o hR ho s t d hd]
  rw [ptsOrderHex_closed (g + 1) o (by omega) ho _ (by simp)] at hord
  obtain rfl := Option.some.inj hord
  rw [faceNodesHex_lattice fL g hL _ (by simp)] at hnL
  rw [faceNodesHex_lattice fR g hR _ (by simp)] at hnR
  obtain rfl := Option.some.inj hnL
  obtain rfl := Option.some.inj hnR
  refine Finset.sum_congr rfl fun r hr => Finset.sum_congr rfl fun c hc => ?_
  rw [Finset.mem_range] at hr hc
  have hi : r * (g + 1) + c < (g + 1) * (g + 1) := by nlinarith
  have hdiv : (r * (g + 1) + c) / (g + 1) = r := by
    rw [Nat.add_comm, Nat.add_mul_div_right _ _ (by omega), Nat.div_eq_of_lt hc]; omega
  have hmod : (r * (g + 1) + c) % (g + 1) = c := by
    rw [Nat.add_comm, Nat.add_mul_mod_self_right, Nat.mod_eq_of_lt hc]
  obtain ⟨h1, h2⟩ := dihedral_lt (o := o) hr hc
  have hj : dihIdx (g + 1) o (r * (g + 1) + c) = (dihedral (g + 1) o r c).1 * (g + 1)
      + (dihedral (g + 1) o r c).2 := by
    unfold dihIdx; rw [hdiv, hmod]
  have hjlt : dihIdx (g + 1) o (r * (g + 1) + c) < (g + 1) * (g + 1) := dihIdx_lt hi
  have s := same _ hi (dihIdx (g + 1) o (r * (g + 1) + c)) (by simp [hi]) d hd
  have hdiv' : dihIdx (g + 1) o (r * (g + 1) + c) / (g + 1) = (dihedral (g + 1) o r c).1 := by
    rw [hj, Nat.add_comm, Nat.add_mul_div_right _ _ (by omega), Nat.div_eq_of_lt h2]; omega
  have hmod' : dihIdx (g + 1) o (r * (g + 1) + c) % (g + 1) = (dihedral (g + 1) o r c).2 := by
    rw [hj, Nat.add_comm, Nat.add_mul_mod_self_right, Nat.mod_eq_of_lt h2]
  simp [extractNodes, nodesPerFaceHex, hi, hjlt, hdiv, hmod, hdiv', hmod'] at s
  rw [s]

end nodes
/-! ### C57: the normals the two ranks of a ghost face use -/

/-- **C57** (quadrilateral, ghost normals).  For elements that conform with orientations 0 and 1,
the normal the right rank stores at face point `x` (its own outward normal, with sign `-1`) is the
normal the left rank stores at the *mirrored* face point `-x`: the two ranks list the same normals in
opposite order. -/
theorem C57_quad_normals_reversed (gL gR : ℕ) (hgL : 0 < gL) (hgR : 0 < gR) (elL elR : ℕ → ℕ → ℝ)
    (fL fR : ℕ) (hL : fL < 4) (hR : fR < 4) (conf : ConformQuad gL elL fL 0 gR elR fR 1) (x : ℝ) :
    ∃ n, faceNormalQuad (-1) gR fR elR x = some n ∧ faceNormalQuad 1 gL fL elL (-x) = some n := by
  rw [conformQuad_iff _ _ _ _ _ _ _ _ hL hR] at conf
  have key : ∀ d < 2, tanQuad gR fR elR x d = - tanQuad gL fL elL (-x) d := by
    intro d hd
    refine (hasDerivAt_physQuad gR hgR elR fR hR x d hd).unique ?_
    have e : (fun s => physQuad gR elR (quadPt fR 0 s) d)
        = fun s => physQuad gL elL (quadPt fL 0 (-s)) d := by
      funext s
      rw [conf (-s) d hd, quadPt_flip fR hR, neg_neg]
    rw [e]
    have h1 := hasDerivAt_physQuad gL hgL elL fL hL (-x) d hd
    have h2 := HasDerivAt.comp x h1 (hasDerivAt_neg x)
    rw [mul_neg_one] at h2
    exact h2
  refine ⟨_, faceNormalQuad_eq _ gR hgR fR hR elR x, ?_⟩
  rw [faceNormalQuad_eq _ gL hgL fL hL elL, key 0 (by omega), key 1 (by omega)]
  congr 2 <;> ring

/-- **C57** (quadrilateral, when the ranks agree).  The two ranks use the same normal at face point `x`
exactly when the left element's normals at `x` and at the mirrored point agree. -/
theorem C57_quad_normals_agree_iff (gL gR : ℕ) (hgL : 0 < gL) (hgR : 0 < gR) (elL elR : ℕ → ℕ → ℝ)
    (fL fR : ℕ) (hL : fL < 4) (hR : fR < 4) (conf : ConformQuad gL elL fL 0 gR elR fR 1) (x : ℝ) :
    faceNormalQuad (-1) gR fR elR x = faceNormalQuad 1 gL fL elL x ↔
      faceNormalQuad 1 gL fL elL (-x) = faceNormalQuad 1 gL fL elL x := by
  obtain ⟨n, h1, h2⟩ := C57_quad_normals_reversed gL gR hgL hgR elL elR fL fR hL hR conf x
  rw [h1, h2]

/-- **C57** (straight faces).  When the common face is straight, both ranks use the same
normal at every quadrature point.  On curved faces it is false (`C57_quad_curved_normals_differ`). -/
theorem C57_quad_straight_normals_agree (gL gR : ℕ) (hgL : 0 < gL) (hgR : 0 < gR)
    (elL elR : ℕ → ℕ → ℝ) (fL fR : ℕ) (hL : fL < 4) (hR : fR < 4)
    (conf : ConformQuad gL elL fL 0 gR elR fR 1) (A B : ℕ → ℝ)
    (straight : ∀ x p, pointsOnFaceQuad fL 0 [x] = some [p] →
      ∀ d < 2, physQuad gL elL p d = A d + x * B d) (x : ℝ) :
    ∃ n, faceNormalQuad (-1) gR fR elR x = some n ∧ faceNormalQuad 1 gL fL elL x = some n := by
  obtain ⟨n, h1, h2⟩ := C57_quad_normals_reversed gL gR hgL hgR elL elR fL fR hL hR conf x
  refine ⟨n, h1, ?_⟩
  have t : ∀ y, ∀ d < 2, tanQuad gL fL elL y d = B d := by
    intro y d hd
    refine (hasDerivAt_physQuad gL hgL elL fL hL y d hd).unique ?_
    have e : (fun s => physQuad gL elL (quadPt fL 0 s) d) = fun s => A d + s * B d := by
      funext s
      exact straight s _ (by rw [pointsOnFaceQuad_eq _ _ hL]; rfl) d hd
    rw [e]; exact hasDerivAt_lin _ _ _
  rw [faceNormalQuad_eq _ gL hgL fL hL] at h2 ⊢
  rw [t _ 0 (by omega), t _ 1 (by omega)] at h2 ⊢
  exact h2

/-- The point of the left element's face list whose normal the right rank uses at face point `q`, for
orientation `o`. -/
def partnerPoint {K : Type} [Neg K] (o : ℕ) (q : K × K) : K × K :=
  if o = 4 then (q.2, q.1) else if o = 5 then (q.1, -q.2) else if o = 6 then (-q.2, -q.1)
  else (-q.1, q.2)

theorem hasDerivAt_neg_arg {f : ℝ → ℝ} {f' x : ℝ} (h : HasDerivAt f f' (-x)) :
    HasDerivAt (fun s => f (-s)) (-f') x := by
  have := h.comp x (hasDerivAt_neg x)
  rw [mul_neg_one] at this
  exact this

/-- **C57** (hexahedron, ghost normals, all faces).  For hexahedra of any geometric order that conform with
orientations 0 and `o`, `4 ≤ o < 8` (the orientations of two outward-numbered elements), whatever the
shape of the common face: the normal the right rank stores at face point `q` is the normal the left rank
stores at the point `partnerPoint o q`.  So the ranks list the same normals in different orders, and agree
at `q` exactly when the left element's normals at `q` and at `partnerPoint o q` agree. -/
theorem C57_hex_normals_permuted (gL gR : ℕ) (hgL : 0 < gL) (hgR : 0 < gR)
    (elL elR : ℕ → ℕ → ℝ) (fL fR o : ℕ) (hL : fL < 6) (hR : fR < 6) (ho4 : 4 ≤ o) (ho : o < 8)
    (conf : ConformHex gL elL fL 0 gR elR fR o) (q : ℝ × ℝ) :
    ∃ nL nL' nR, faceNormalHex (-1) gR fR elR q = some nR ∧
      faceNormalHex 1 gL fL elL (partnerPoint o q) = some nL' ∧ faceNormalHex 1 gL fL elL q = some nL ∧
      (∀ d < 3, nR d = nL' d) ∧ ((∀ d < 3, nL d = nR d) ↔ ∀ d < 3, nL d = nL' d) := by
  obtain ⟨s, t⟩ := q
  rw [conformHex_iff _ _ _ _ _ _ _ _ hL hR] at conf
  have cf : ∀ a b, ∀ d < 3, physHex gR elR (hexPt fR 0 (unorient o (a, b))) d
      = physHex gL elL (hexPt fL 0 (a, b)) d := by
    intro a b d hd
    rw [← hexPt_orient fR o hR ho, ← conf (a, b) d hd]
  obtain ⟨nL, l1, -⟩ := faceNormalHex_eq 1 gL hgL fL hL elL s t
  obtain ⟨nL', p1, p2, p3, p4⟩ := faceNormalHex_eq 1 gL hgL fL hL elL (partnerPoint o (s, t)).1
    (partnerPoint o (s, t)).2
  obtain ⟨nR, r1, r2, r3, r4⟩ := faceNormalHex_eq (-1) gR hgR fR hR elR s t
  have key : ∀ d < 3, nR d = nL' d := by
    have D1 := fun a b d hd => hasDerivAt_physHex1 gL hgL elL fL hL a b d hd
    have D2 := fun a b d hd => hasDerivAt_physHex2 gL hgL elL fL hL a b d hd
    have E1 := fun a b d hd => hasDerivAt_physHex1 gR hgR elR fR hR a b d hd
    have E2 := fun a b d hd => hasDerivAt_physHex2 gR hgR elR fR hR a b d hd
    have z0 : (0:ℕ) < 3 := by omega
    have z1 : (1:ℕ) < 3 := by omega
    have z2 : (2:ℕ) < 3 := by omega
    have fin : ∀ (P : ℕ → Prop), P 0 → P 1 → P 2 → ∀ d < 3, P d := by
      intro P h0 h1 h2 d hd
      have hD : d = 0 ∨ d = 1 ∨ d = 2 := by omega
      rcases hD with rfl | rfl | rfl <;> assumption
    have hO : o = 4 ∨ o = 5 ∨ o = 6 ∨ o = 7 := by omega
    rcases hO with rfl | rfl | rfl | rfl <;> simp only [unorient] at cf <;>
      simp only [partnerPoint, if_true, show (5:ℕ) ≠ 4 by omega, show (6:ℕ) ≠ 4 by omega,
        show (6:ℕ) ≠ 5 by omega, show (7:ℕ) ≠ 4 by omega, show (7:ℕ) ≠ 5 by omega,
        show (7:ℕ) ≠ 6 by omega, if_false] at p2 p3 p4
    · have t1 : ∀ d < 3, tanHex1 gR fR elR t s d = tanHex2 gL fL elL s t d := fun d hd => by
        refine (E1 t s d hd).unique ?_
        have e : (fun a => physHex gR elR (hexPt fR 0 (a, s)) d)
            = fun a => physHex gL elL (hexPt fL 0 (s, a)) d := by funext a; rw [cf s a d hd]
        rw [e]; exact D2 s t d hd
      have t2 : ∀ d < 3, tanHex2 gR fR elR t s d = tanHex1 gL fL elL s t d := fun d hd => by
        refine (E2 t s d hd).unique ?_
        have e : (fun a => physHex gR elR (hexPt fR 0 (t, a)) d)
            = fun a => physHex gL elL (hexPt fL 0 (a, t)) d := by funext a; rw [cf a t d hd]
        rw [e]; exact D1 s t d hd
      rw [t1 _ z0, t1 _ z1, t2 _ z0, t2 _ z1] at r4
      rw [t1 _ z0, t1 _ z2, t2 _ z0, t2 _ z2] at r3
      rw [t1 _ z1, t1 _ z2, t2 _ z1, t2 _ z2] at r2
      exact fin _ (by rw [r2, p2]; ring) (by rw [r3, p3]; ring) (by rw [r4, p4]; ring)
    · have t1 : ∀ d < 3, tanHex1 gR fR elR t s d = - tanHex1 gL fL elL (-t) s d := fun d hd => by
        refine (E1 t s d hd).unique ?_
        have e : (fun a => physHex gR elR (hexPt fR 0 (a, s)) d)
            = fun a => physHex gL elL (hexPt fL 0 (-a, s)) d := by
          funext a; rw [← cf (-a) s d hd, neg_neg]
        rw [e]; exact hasDerivAt_neg_arg (D1 (-t) s d hd)
      have t2 : ∀ d < 3, tanHex2 gR fR elR t s d = tanHex2 gL fL elL (-t) s d := fun d hd => by
        refine (E2 t s d hd).unique ?_
        have e : (fun a => physHex gR elR (hexPt fR 0 (t, a)) d)
            = fun a => physHex gL elL (hexPt fL 0 (-t, a)) d := by
          funext a; rw [← cf (-t) a d hd, neg_neg]
        rw [e]; exact D2 (-t) s d hd
      rw [t1 _ z0, t1 _ z1, t2 _ z0, t2 _ z1] at r4
      rw [t1 _ z0, t1 _ z2, t2 _ z0, t2 _ z2] at r3
      rw [t1 _ z1, t1 _ z2, t2 _ z1, t2 _ z2] at r2
      exact fin _ (by rw [r2, p2]; ring) (by rw [r3, p3]; ring) (by rw [r4, p4]; ring)
    · have t1 : ∀ d < 3, tanHex1 gR fR elR t s d = - tanHex2 gL fL elL (-s) (-t) d := fun d hd => by
        refine (E1 t s d hd).unique ?_
        have e : (fun a => physHex gR elR (hexPt fR 0 (a, s)) d)
            = fun a => physHex gL elL (hexPt fL 0 (-s, -a)) d := by
          funext a; rw [← cf (-s) (-a) d hd, neg_neg, neg_neg]
        rw [e]; exact hasDerivAt_neg_arg (D2 (-s) (-t) d hd)
      have t2 : ∀ d < 3, tanHex2 gR fR elR t s d = - tanHex1 gL fL elL (-s) (-t) d := fun d hd => by
        refine (E2 t s d hd).unique ?_
        have e : (fun a => physHex gR elR (hexPt fR 0 (t, a)) d)
            = fun a => physHex gL elL (hexPt fL 0 (-a, -t)) d := by
          funext a; rw [← cf (-a) (-t) d hd, neg_neg, neg_neg]
        rw [e]; exact hasDerivAt_neg_arg (D1 (-s) (-t) d hd)
      rw [t1 _ z0, t1 _ z1, t2 _ z0, t2 _ z1] at r4
      rw [t1 _ z0, t1 _ z2, t2 _ z0, t2 _ z2] at r3
      rw [t1 _ z1, t1 _ z2, t2 _ z1, t2 _ z2] at r2
      exact fin _ (by rw [r2, p2]; ring) (by rw [r3, p3]; ring) (by rw [r4, p4]; ring)
    · have t1 : ∀ d < 3, tanHex1 gR fR elR t s d = tanHex1 gL fL elL t (-s) d := fun d hd => by
        refine (E1 t s d hd).unique ?_
        have e : (fun a => physHex gR elR (hexPt fR 0 (a, s)) d)
            = fun a => physHex gL elL (hexPt fL 0 (a, -s)) d := by
          funext a; rw [← cf a (-s) d hd, neg_neg]
        rw [e]; exact D1 t (-s) d hd
      have t2 : ∀ d < 3, tanHex2 gR fR elR t s d = - tanHex2 gL fL elL t (-s) d := fun d hd => by
        refine (E2 t s d hd).unique ?_
        have e : (fun a => physHex gR elR (hexPt fR 0 (t, a)) d)
            = fun a => physHex gL elL (hexPt fL 0 (t, -a)) d := by
          funext a; rw [← cf t (-a) d hd, neg_neg]
        rw [e]; exact hasDerivAt_neg_arg (D2 t (-s) d hd)
      rw [t1 _ z0, t1 _ z1, t2 _ z0, t2 _ z1] at r4
      rw [t1 _ z0, t1 _ z2, t2 _ z0, t2 _ z2] at r3
      rw [t1 _ z1, t1 _ z2, t2 _ z1, t2 _ z2] at r2
      exact fin _ (by rw [r2, p2]; ring) (by rw [r3, p3]; ring) (by rw [r4, p4]; ring)
  refine ⟨nL, nL', nR, r1, p1, l1, key, ?_⟩
  exact ⟨fun h d hd => (h d hd).trans (key d hd), fun h d hd => (h d hd).trans (key d hd).symm⟩

/-- **C57** (planar parallelogram faces).  Hexahedra that conform with orientations 0 and
`o`, `4 ≤ o < 8` (the orientations of two outward-numbered elements): when the common face is an affine
image of the square, both ranks use the same normal at every quadrature point. -/
theorem C57_hex_affine_normals_agree (gL gR : ℕ) (hgL : 0 < gL) (hgR : 0 < gR)
    (elL elR : ℕ → ℕ → ℝ) (fL fR o : ℕ) (hL : fL < 6) (hR : fR < 6) (ho4 : 4 ≤ o) (ho : o < 8)
    (conf : ConformHex gL elL fL 0 gR elR fR o) (A B C : ℕ → ℝ)
    (flat : ∀ s t p, pointsOnFaceHex fL 0 [(s, t)] = some [p] →
      ∀ d < 3, physHex gL elL p d = A d + s * B d + t * C d) (q : ℝ × ℝ) :
    ∃ nL nR, faceNormalHex 1 gL fL elL q = some nL ∧ faceNormalHex (-1) gR fR elR q = some nR ∧
      ∀ d < 3, nL d = nR d := by
  obtain ⟨s, t⟩ := q
  rw [conformHex_iff _ _ _ _ _ _ _ _ hL hR] at conf
  have fl : ∀ s t, ∀ d < 3, physHex gL elL (hexPt fL 0 (s, t)) d = A d + s * B d + t * C d := by
    intro s t d hd
    exact flat s t _ (by rw [pointsOnFaceHex_eq _ _ hL]; rfl) d hd
  have tL1 : ∀ a b, ∀ d < 3, tanHex1 gL fL elL a b d = B d := by
    intro a b d hd
    refine (hasDerivAt_physHex1 gL hgL elL fL hL a b d hd).unique ?_
    have e : (fun s => physHex gL elL (hexPt fL 0 (s, b)) d) = fun s => (A d + b * C d) + s * B d := by
      funext s; rw [fl s b d hd]; ring
    rw [e]; exact hasDerivAt_lin _ _ _
  have tL2 : ∀ a b, ∀ d < 3, tanHex2 gL fL elL a b d = C d := by
    intro a b d hd
    refine (hasDerivAt_physHex2 gL hgL elL fL hL a b d hd).unique ?_
    have e : (fun s => physHex gL elL (hexPt fL 0 (a, s)) d) = fun s => (A d + a * B d) + s * C d := by
      funext s; rw [fl a s d hd]
    rw [e]; exact hasDerivAt_lin _ _ _
  have cf : ∀ s t, ∀ d < 3, physHex gR elR (hexPt fR 0 (unorient o (s, t))) d
      = A d + s * B d + t * C d := by
    intro s t d hd
    rw [← hexPt_orient fR o hR ho, ← conf (s, t) d hd, fl s t d hd]
  -- coefficients of the right parametrisation
  obtain ⟨P, Q, hPQ, hcr⟩ : ∃ P Q : ℕ → ℝ,
      (∀ a b, ∀ d < 3, physHex gR elR (hexPt fR 0 (a, b)) d = A d + a * P d + b * Q d) ∧
      ∀ i j, P i * Q j - P j * Q i = - (B i * C j - B j * C i) := by
    have hO : o = 4 ∨ o = 5 ∨ o = 6 ∨ o = 7 := by omega
    rcases hO with rfl | rfl | rfl | rfl <;> simp only [unorient] at cf
    · exact ⟨C, B, fun a b d hd => by rw [cf b a d hd]; ring, fun i j => by ring⟩
    · refine ⟨fun d => - B d, C, fun a b d hd => ?_, fun i j => by ring⟩
      have := cf (-a) b d hd
      rw [neg_neg] at this
      rw [this]; ring
    · refine ⟨fun d => - C d, fun d => - B d, fun a b d hd => ?_, fun i j => by ring⟩
      have := cf (-b) (-a) d hd
      rw [neg_neg, neg_neg] at this
      rw [this]; ring
    · refine ⟨B, fun d => - C d, fun a b d hd => ?_, fun i j => by ring⟩
      have := cf a (-b) d hd
      rw [neg_neg] at this
      rw [this]; ring
  have tR1 : ∀ a b, ∀ d < 3, tanHex1 gR fR elR a b d = P d := by
    intro a b d hd
    refine (hasDerivAt_physHex1 gR hgR elR fR hR a b d hd).unique ?_
    have e : (fun s => physHex gR elR (hexPt fR 0 (s, b)) d) = fun s => (A d + b * Q d) + s * P d := by
      funext s; rw [hPQ s b d hd]; ring
    rw [e]; exact hasDerivAt_lin _ _ _
  have tR2 : ∀ a b, ∀ d < 3, tanHex2 gR fR elR a b d = Q d := by
    intro a b d hd
    refine (hasDerivAt_physHex2 gR hgR elR fR hR a b d hd).unique ?_
    have e : (fun s => physHex gR elR (hexPt fR 0 (a, s)) d) = fun s => (A d + a * P d) + s * Q d := by
      funext s; rw [hPQ a s d hd]
    rw [e]; exact hasDerivAt_lin _ _ _
  obtain ⟨nL, l1, l2, l3, l4⟩ := faceNormalHex_eq 1 gL hgL fL hL elL s t
  obtain ⟨nR, r1, r2, r3, r4⟩ := faceNormalHex_eq (-1) gR hgR fR hR elR s t
  refine ⟨nL, nR, l1, r1, fun d hd => ?_⟩
  have hD : d = 0 ∨ d = 1 ∨ d = 2 := by omega
  have z0 : (0:ℕ) < 3 := by omega
  have z1 : (1:ℕ) < 3 := by omega
  have z2 : (2:ℕ) < 3 := by omega
  simp only [tL1 _ _ 0 z0, tL1 _ _ 1 z1, tL1 _ _ 2 z2, tL2 _ _ 0 z0, tL2 _ _ 1 z1, tL2 _ _ 2 z2,
    tR1 _ _ 0 z0, tR1 _ _ 1 z1, tR1 _ _ 2 z2, tR2 _ _ 0 z0, tR2 _ _ 1 z1, tR2 _ _ 2 z2]
    at l2 l3 l4 r2 r3 r4
  rcases hD with rfl | rfl | rfl
  · rw [l2, r2]; linear_combination hcr 1 2
  · rw [l3, r3]; linear_combination hcr 2 0
  · rw [l4, r4]; linear_combination hcr 0 1

/-! ### counterexamples -/

theorem ell_one_zero (x : ℝ) : ell 1 0 x = (1 - x) / 2 := by
  unfold ell
  rw [← lagPoly_eval, nodesP_length]
  simp [Finset.prod_range_succ, nodesP, get0, List.range_succ]
  norm_num
  ring
theorem ell_one_one (x : ℝ) : ell 1 1 x = (1 + x) / 2 := by
  unfold ell
  rw [← lagPoly_eval, nodesP_length]
  simp [Finset.prod_range_succ, nodesP, get0, List.range_succ]
  norm_num
  ring
theorem ell_two_one (x : ℝ) : ell 2 1 x = 1 - x ^ 2 := by
  unfold ell
  rw [← lagPoly_eval, nodesP_length]
  simp [Finset.prod_range_succ, nodesP, get0, List.range_succ]
  norm_num
  ring

/-- a unit-spaced second-order quadrilateral whose right side bulges by 1/4 -/
noncomputable def bulgeL (m d : ℕ) : ℝ :=
  if d = 0 then ((m % 3 : ℕ) : ℝ) - 1 + (if m = 5 then 1/4 else 0) else ((m / 3 : ℕ) : ℝ) - 1
/-- its right neighbour -/
noncomputable def bulgeR (m d : ℕ) : ℝ :=
  if d = 0 then ((m % 3 : ℕ) : ℝ) + 1 + (if m = 3 then 1/4 else 0) else ((m / 3 : ℕ) : ℝ) - 1

theorem bulge_conform : ConformQuad 2 bulgeL 1 0 2 bulgeR 3 1 := by
  refine C57_quad_conforming_nodes 2 (by omega) _ _ 1 3 (by omega) (by omega) _ _
    (faceNodesQuad_lattice 1 2 (by omega) _ (by simp))
    (faceNodesQuad_lattice 3 2 (by omega) _ (by simp)) ?_
  intro t ht d hd
  have hT : t = 0 ∨ t = 1 ∨ t = 2 := by omega
  have hD : d = 0 ∨ d = 1 := by omega
  rcases hT with rfl | rfl | rfl <;> rcases hD with rfl | rfl <;>
    simp [extractNodes, quadNode, quadFaceLattice, bulgeL, bulgeR] <;> norm_num

/-- **C57** (negation on curved faces).  Two second-order quadrilaterals that share the three nodes
of a curved face, and conform with orientations 0 and 1: the two ranks use different normals at the
face point `1/2`. -/
theorem C57_quad_curved_normals_differ :
    ConformQuad 2 bulgeL 1 0 2 bulgeR 3 1 ∧ ∃ nL nR, faceNormalQuad 1 2 1 bulgeL (1/2) = some nL ∧
      faceNormalQuad (-1) 2 3 bulgeR (1/2) = some nR ∧ nL ≠ nR := by
  refine ⟨bulge_conform, ?_⟩
  obtain ⟨nR, h1, h2⟩ := C57_quad_normals_reversed 2 2 (by omega) (by omega) _ _ 1 3 (by omega) (by omega)
    bulge_conform (1/2)
  refine ⟨_, nR, faceNormalQuad_eq 1 2 (by omega) 1 (by omega) bulgeL (1/2), h1, ?_⟩
  rw [faceNormalQuad_eq 1 2 (by omega) 1 (by omega)] at h2
  rw [← Option.some.inj h2]
  have t : ∀ x, tanQuad 2 1 bulgeL x 0 = - (x / 2) := by
    intro x
    refine (hasDerivAt_physQuad 2 (by omega) bulgeL 1 (by omega) x 0 (by omega)).unique ?_
    have e : (fun s => physQuad 2 bulgeL (quadPt 1 0 s) 0) = fun s => 5/4 - s ^ 2 / 4 := by
      funext s
      rw [physQuad_face 2 (by omega) bulgeL 1 (by omega) s 0 (by omega)]
      have h := sum_ell 2 (by omega) s
      simp only [Finset.sum_range_succ, Finset.sum_range_zero] at h ⊢
      simp [quadNode, quadFaceLattice, bulgeL]
      norm_num
      have h3 := ell_two_one s
      linear_combination h + (1/4) * h3
    rw [e]
    have h := (((hasDerivAt_pow 2 x).div_const 4).const_sub (5/4))
    have e2 : -(x / 2) = -(((2:ℕ):ℝ) * x ^ (2 - 1) / 4) := by norm_num; ring
    rw [e2]; exact h
  rw [t, t]
  intro hc
  have := (Prod.mk.inj hc).2
  norm_num at this

/-- a first-order hexahedron: the cube `[-1,1]³` with the top corner over `(1,-1)` raised by one -/
noncomputable def raised (m d : ℕ) : ℝ :=
  if d = 0 then 2 * ((m % 2 : ℕ) : ℝ) - 1
  else if d = 1 then 2 * ((m / 2 % 2 : ℕ) : ℝ) - 1
  else 2 * ((m / 4 : ℕ) : ℝ) - 1 + (if m = 5 then 1 else 0)

theorem raised_top (s t : ℝ) : physHex 1 raised (hexPt 5 0 (s, t)) 0 = s ∧
    physHex 1 raised (hexPt 5 0 (s, t)) 1 = t ∧
    physHex 1 raised (hexPt 5 0 (s, t)) 2 = 1 + (1 + s) * (1 - t) / 4 := by
  refine ⟨?_, ?_, ?_⟩ <;> rw [physHex_face 1 (by omega) raised 5 (by omega) s t _ (by omega)] <;>
    simp [Finset.sum_range_succ, hexNode, hexFaceLattice, raised, ell_one_zero, ell_one_one] <;>
    norm_num <;> ring

/-- **C17** (negation for faces that are not parallelograms).  On a first-order hexahedron with one
raised top corner, the normal stored for the top face at the face point `(1/2, 0)` is not the cross
product of the face tangents at that point (its first component is -1/8 instead of -1/4). -/
theorem C17_hex_normal_misplaced : ∃ (T1 T2 n : ℕ → ℝ),
      (∀ d < 3, HasDerivAt (fun a => physHex 1 raised (hexPt 5 0 (a, 0)) d) (T1 d) (1/2)) ∧
      (∀ d < 3, HasDerivAt (fun b => physHex 1 raised (hexPt 5 0 (1/2, b)) d) (T2 d) 0) ∧
      faceNormalHex 1 1 5 raised (1/2, 0) = some n ∧
      n 0 = -1/8 ∧ T1 1 * T2 2 - T1 2 * T2 1 = -1/4 := by
  have d10 : ∀ a b, tanHex1 1 5 raised a b 1 = 0 := by
    intro a b
    refine (hasDerivAt_physHex1 1 (by omega) raised 5 (by omega) a b 1 (by omega)).unique ?_
    have e : (fun s => physHex 1 raised (hexPt 5 0 (s, b)) 1) = fun s => b + s * 0 := by
      funext s; rw [(raised_top s b).2.1]; ring
    rw [e]; exact hasDerivAt_lin _ _ _
  have d12 : ∀ a b, tanHex1 1 5 raised a b 2 = (1 - b) / 4 := by
    intro a b
    refine (hasDerivAt_physHex1 1 (by omega) raised 5 (by omega) a b 2 (by omega)).unique ?_
    have e : (fun s => physHex 1 raised (hexPt 5 0 (s, b)) 2)
        = fun s => (1 + (1 - b) / 4) + s * ((1 - b) / 4) := by
      funext s; rw [(raised_top s b).2.2]; ring
    rw [e]; exact hasDerivAt_lin _ _ _
  have d21 : ∀ a b, tanHex2 1 5 raised a b 1 = 1 := by
    intro a b
    refine (hasDerivAt_physHex2 1 (by omega) raised 5 (by omega) a b 1 (by omega)).unique ?_
    have e : (fun s => physHex 1 raised (hexPt 5 0 (a, s)) 1) = fun s => 0 + s * 1 := by
      funext s; rw [(raised_top a s).2.1]; ring
    rw [e]; exact hasDerivAt_lin _ _ _
  obtain ⟨n, h1, h2, _, _⟩ := faceNormalHex_eq 1 1 (by omega) 5 (by omega) raised (1/2) 0
  refine ⟨tanHex1 1 5 raised (1/2) 0, tanHex2 1 5 raised (1/2) 0, n,
    fun d hd => hasDerivAt_physHex1 1 (by omega) raised 5 (by omega) _ _ d hd,
    fun d hd => hasDerivAt_physHex2 1 (by omega) raised 5 (by omega) _ _ d hd, h1, ?_, ?_⟩
  · rw [h2, d10, d12, d21]; norm_num
  · rw [d10, d12, d21]; norm_num

/-- the first-order hexahedron on top of `raised` -/
noncomputable def above (m d : ℕ) : ℝ :=
  if d = 0 then 2 * ((m % 2 : ℕ) : ℝ) - 1
  else if d = 1 then 2 * ((m / 2 % 2 : ℕ) : ℝ) - 1
  else 2 * ((m / 4 : ℕ) : ℝ) + 1 + (if m = 1 then 1 else 0)

theorem above_bottom (s t : ℝ) : physHex 1 above (hexPt 0 0 (s, t)) 0 = t ∧
    physHex 1 above (hexPt 0 0 (s, t)) 1 = s ∧
    physHex 1 above (hexPt 0 0 (s, t)) 2 = 1 + (1 + t) * (1 - s) / 4 := by
  refine ⟨?_, ?_, ?_⟩ <;> rw [physHex_face 1 (by omega) above 0 (by omega) s t _ (by omega)] <;>
    simp [Finset.sum_range_succ, hexNode, hexFaceLattice, above, ell_one_zero, ell_one_one] <;>
    norm_num <;> ring

theorem raised_above_conform : ConformHex 1 raised 5 0 1 above 0 4 := by
  rw [conformHex_iff _ _ _ _ _ _ _ _ (by omega) (by omega)]
  rintro ⟨s, t⟩ d hd
  rw [hexPt_orient 0 4 (by omega) (by omega)]
  simp only [unorient]
  obtain ⟨a0, a1, a2⟩ := above_bottom t s
  obtain ⟨b0, b1, b2⟩ := raised_top s t
  have hD : d = 0 ∨ d = 1 ∨ d = 2 := by omega
  rcases hD with rfl | rfl | rfl
  · rw [a0, b0]
  · rw [a1, b1]
  · rw [a2, b2]

/-- **C57** (negation for hexahedra of order 1).  Two first-order hexahedra that share the four corners of
a face that is not a parallelogram, and conform with orientations 0 and 4: the ranks use different normals
at the face point `(1/2, 0)`. -/
theorem C57_hex_twisted_normals_differ :
    ConformHex 1 raised 5 0 1 above 0 4 ∧ ∃ nL nR, faceNormalHex 1 1 5 raised (1/2, 0) = some nL ∧
      faceNormalHex (-1) 1 0 above (1/2, 0) = some nR ∧ nL 0 = -1/8 ∧ nR 0 = -1/4 := by
  refine ⟨raised_above_conform, ?_⟩
  have d10 : ∀ a b, tanHex1 1 5 raised a b 1 = 0 := by
    intro a b
    refine (hasDerivAt_physHex1 1 (by omega) raised 5 (by omega) a b 1 (by omega)).unique ?_
    have e : (fun s => physHex 1 raised (hexPt 5 0 (s, b)) 1) = fun s => b + s * 0 := by
      funext s; rw [(raised_top s b).2.1]; ring
    rw [e]; exact hasDerivAt_lin _ _ _
  have d12 : ∀ a b, tanHex1 1 5 raised a b 2 = (1 - b) / 4 := by
    intro a b
    refine (hasDerivAt_physHex1 1 (by omega) raised 5 (by omega) a b 2 (by omega)).unique ?_
    have e : (fun s => physHex 1 raised (hexPt 5 0 (s, b)) 2)
        = fun s => (1 + (1 - b) / 4) + s * ((1 - b) / 4) := by
      funext s; rw [(raised_top s b).2.2]; ring
    rw [e]; exact hasDerivAt_lin _ _ _
  have d21 : ∀ a b, tanHex2 1 5 raised a b 1 = 1 := by
    intro a b
    refine (hasDerivAt_physHex2 1 (by omega) raised 5 (by omega) a b 1 (by omega)).unique ?_
    have e : (fun s => physHex 1 raised (hexPt 5 0 (a, s)) 1) = fun s => 0 + s * 1 := by
      funext s; rw [(raised_top a s).2.1]; ring
    rw [e]; exact hasDerivAt_lin _ _ _
  obtain ⟨nL, nL', nR, h1, h2, h3, h4, -⟩ := C57_hex_normals_permuted 1 1 (by omega) (by omega) raised above
    5 0 4 (by omega) (by omega) (by omega) (by omega) raised_above_conform (1/2, 0)
  refine ⟨nL, nR, h3, h1, ?_, ?_⟩
  · obtain ⟨n, e, h, -⟩ := faceNormalHex_eq 1 1 (by omega) 5 (by omega) raised (1/2) 0
    rw [h3] at e
    obtain rfl := Option.some.inj e
    rw [h, d10, d12, d21]; norm_num
  · rw [h4 0 (by omega)]
    simp only [partnerPoint, if_true] at h2
    obtain ⟨n, e, h, -⟩ := faceNormalHex_eq 1 1 (by omega) 5 (by omega) raised 0 (1/2)
    rw [h2] at e
    obtain rfl := Option.some.inj e
    rw [h, d10, d12, d21]; norm_num

/-- the hypotheses of the straight-face theorem are met by two unit cells of the plane -/
example : ∃ n, faceNormalQuad (-1) 1 3 (fun m d => if d = 0 then 2 + ((m % 2 : ℕ) : ℝ) else ((m / 2 : ℕ) : ℝ)) 0
      = some n ∧ faceNormalQuad 1 1 1
        (fun m d => if d = 0 then 1 + ((m % 2 : ℕ) : ℝ) else ((m / 2 : ℕ) : ℝ)) 0 = some n := by
  refine C57_quad_straight_normals_agree 1 1 (by omega) (by omega) _ _ 1 3 (by omega) (by omega) ?_
    (fun d => if d = 0 then 2 else 1/2) (fun d => if d = 0 then 0 else 1/2) ?_ 0
  · refine C57_quad_conforming_nodes 1 (by omega) _ _ 1 3 (by omega) (by omega) _ _
      (faceNodesQuad_lattice 1 1 (by omega) _ (by simp))
      (faceNodesQuad_lattice 3 1 (by omega) _ (by simp)) ?_
    intro t ht d hd
    have hT : t = 0 ∨ t = 1 := by omega
    have hD : d = 0 ∨ d = 1 := by omega
    rcases hT with rfl | rfl <;> rcases hD with rfl | rfl <;>
      simp [extractNodes, quadNode, quadFaceLattice] <;> norm_num
  · intro x p hp d hd
    rw [pointsOnFaceQuad_eq 1 0 (by omega)] at hp
    simp only [List.map_cons, List.map_nil, Option.some.injEq, List.cons.injEq, and_true] at hp
    rw [← hp, physQuad_face 1 (by omega) _ 1 (by omega) x d hd]
    have hD : d = 0 ∨ d = 1 := by omega
    rcases hD with rfl | rfl <;>
      simp [Finset.sum_range_succ, quadNode, quadFaceLattice, ell_one_zero, ell_one_one] <;> ring

end DG
