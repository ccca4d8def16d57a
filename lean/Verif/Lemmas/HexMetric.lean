import Verif.Lemmas.SetupHex
import Verif.Lemmas.QuadMetric

/-!
Order 0 on trilinear hexahedra: the sum of the outward normals of an element vanishes.
-/
namespace DG
open Finset Polynomial

/-- a symmetric tensor rule keeps the constant of a bilinear function -/
theorem sum_bilinear (o : ℕ) (h : tableOK (2 * o + 3)) (a b c e : ℝ) :
    ∑ q ∈ range ((o + 2) * (o + 2)), wt2 o q *
      (a + b * (facePt2 o q).1 + c * (facePt2 o q).2 + e * ((facePt2 o q).1 * (facePt2 o q).2))
    = a * (∑ i ∈ range (o + 2), glW (2 * o + 3) i) ^ 2 := by
  have rule := gl_rule_odd _ h
  have hz : ∑ i ∈ range (o + 2), glW (2 * o + 3) i * glX (2 * o + 3) i = 0 := by
    have : ∑ i ∈ range (o + 2), glW (2 * o + 3) i * glX (2 * o + 3) i
        = - ∑ i ∈ range (o + 2), glW (2 * o + 3) i * glX (2 * o + 3) i := by
      conv_lhs => rw [← Finset.sum_range_reflect]
      rw [← Finset.sum_neg_distrib]
      refine Finset.sum_congr rfl fun i hi => ?_
      rw [rule.symw i (Finset.mem_range.1 hi), rule.symx i (Finset.mem_range.1 hi)]; ring
    linarith
  unfold wt2 facePt2
  set w := glW (2 * o + 3)
  set x := glX (2 * o + 3)
  calc _ = ∑ q ∈ range ((o + 2) * (o + 2)),
        (fun i j => w i * w j * (a + b * x i + c * x j + e * (x i * x j))) (q % (o + 2)) (q / (o + 2)) := rfl
    _ = ∑ j ∈ range (o + 2), ∑ i ∈ range (o + 2), w i * w j * (a + b * x i + c * x j + e * (x i * x j)) :=
        sum_div_mod (o + 2) (o + 2) fun i j => w i * w j * (a + b * x i + c * x j + e * (x i * x j))
    _ = ∑ j ∈ range (o + 2), (w j * a * ∑ i ∈ range (o + 2), w i + (b * w j + e * w j * x j) * ∑ i ∈ range (o + 2), w i * x i
          + c * (w j * x j) * ∑ i ∈ range (o + 2), w i) := by
        refine Finset.sum_congr rfl fun j _ => ?_
        simp only [Finset.mul_sum, ← Finset.sum_add_distrib]
        exact Finset.sum_congr rfl fun i _ => by ring
    _ = _ := by
        simp only [hz, mul_zero, add_zero, Finset.sum_add_distrib, ← Finset.sum_mul, ← Finset.mul_sum]
        ring

theorem faceNormal_bilinear (X : ℕ → ℕ → ℝ) (f j : ℕ) : ∃ b c e : ℝ, ∀ s : ℝ × ℝ,
    faceNormal X f s j = faceNormal X f (0, 0) j + b * s.1 + c * s.2 + e * (s.1 * s.2) := by
  refine ⟨faceNormal X f (1, 0) j - faceNormal X f (0, 0) j, faceNormal X f (0, 1) j - faceNormal X f (0, 0) j,
    faceNormal X f (1, 1) j - faceNormal X f (1, 0) j - faceNormal X f (0, 1) j + faceNormal X f (0, 0) j, fun s => ?_⟩
  unfold faceNormal faceTan1 faceTan2
  ring

/-- the rule applied to the normals of a face: the normal at its centre (with exchanged coordinates or not) -/
theorem sum_normals (o : ℕ) (h : tableOK (2 * o + 3)) (X : ℕ → ℕ → ℝ) (f j : ℕ) :
    ∑ q ∈ range ((o + 2) * (o + 2)), wt2 o q * faceNormal X f ((facePt2 o q).2, (facePt2 o q).1) j
    = faceNormal X f (0, 0) j * (∑ i ∈ range (o + 2), glW (2 * o + 3) i) ^ 2 := by
  obtain ⟨b, c, e, hb⟩ := faceNormal_bilinear X f j
  rw [← sum_bilinear o h (faceNormal X f (0, 0) j) c b e]
  refine Finset.sum_congr rfl fun q _ => ?_
  rw [hb]; ring

/-- the surface of an element is closed -/
theorem normals_closed (X : ℕ → ℕ → ℝ) (j : ℕ) (hj : j < 3) : ∑ f ∈ range 6, faceNormal X f (0, 0) j = 0 := by
  have hJ : j = 0 ∨ j = 1 ∨ j = 2 := by omega
  rcases hJ with rfl | rfl | rfl <;>
    simp [Finset.sum_range_succ, faceNormal, faceTan1, faceTan2, faceCorner] <;> ring

/-- opposite normals at the centre of the two sides of any face -/
theorem centre_normals {X Y : ℕ → ℕ → ℝ} {fL fR oL oR : ℕ} (hfL : fL < 6) (hfR : fR < 6) (hoL : oL < 8)
    (hoR : oR < 8) (opp : oL < 4 ↔ 4 ≤ oR) (shift : ℕ → ℝ)
    (h : ∀ s : ℝ × ℝ, ∀ d < 3, hexMap X (facePoint fL (turn oL s)) d =
      hexMap Y (facePoint fR (turn oR s)) d + shift d) (j : ℕ) (hj : j < 3) :
    faceNormal Y fR (0, 0) j = - faceNormal X fL (0, 0) j := by
  set bl : (ℕ → ℕ → ℝ) → ℕ → ℕ → ℝ := fun X f d =>
    (X (faceCorner f 1) d - X (faceCorner f 0) d + X (faceCorner f 3) d - X (faceCorner f 2) d) / 4 with hbl
  set cl : (ℕ → ℕ → ℝ) → ℕ → ℕ → ℝ := fun X f d =>
    (X (faceCorner f 2) d - X (faceCorner f 0) d + X (faceCorner f 3) d - X (faceCorner f 1) d) / 4 with hcl
  have tans : ∀ (X : ℕ → ℕ → ℝ) (f d : ℕ), faceTan1 X f (0, 0) d = bl X f d ∧ faceTan2 X f (0, 0) d = cl X f d := by
    intro X f d
    constructor
    · simp only [faceTan1, hbl]; ring
    · simp only [faceTan2, hcl]; ring
  obtain ⟨P, Q, hP, hPc⟩ := turn_affine oL hoL (bl X fL) (cl X fL)
  obtain ⟨P', Q', hP', hPc'⟩ := turn_affine oR hoR (bl Y fR) (cl Y fR)
  have axis0 : ∀ (o : ℕ) (a : ℝ), (turn o (a, 0)).1 * (turn o (a, 0)).2 = 0 ∧ (turn o (0, a)).1 * (turn o (0, a)).2 = 0 := by
    intro o a
    unfold turn
    split_ifs <;> simp
  have form : ∀ (s : ℝ × ℝ), (turn oL s).1 * (turn oL s).2 = 0 → (turn oR s).1 * (turn oR s).2 = 0 → ∀ d < 3,
      (X (faceCorner fL 0) d + X (faceCorner fL 1) d + X (faceCorner fL 2) d + X (faceCorner fL 3) d) / 4
        + (s.1 * P d + s.2 * Q d) =
      (Y (faceCorner fR 0) d + Y (faceCorner fR 1) d + Y (faceCorner fR 2) d + Y (faceCorner fR 3) d) / 4 +
        (s.1 * P' d + s.2 * Q' d) + shift d := by
    intro s z1 z2 d hd
    have e := h s d hd
    have eta : ∀ a : ℝ × ℝ, a = (a.1, a.2) := fun _ => rfl
    rw [eta (turn oL s), eta (turn oR s), face_bilinear X fL hfL, face_bilinear Y fR hfR, z1, z2] at e
    have e2 := hP s d
    have e3 := hP' s d
    simp only [hbl, hcl] at e2 e3
    linarith
  have hPQ : ∀ d < 3, P' d = P d ∧ Q' d = Q d := by
    intro d hd
    have k1 := form (1, 0) (axis0 oL 1).1 (axis0 oR 1).1 d hd
    have k2 := form (0, 1) (axis0 oL 1).2 (axis0 oR 1).2 d hd
    have k0 := form (0, 0) (axis0 oL 0).1 (axis0 oR 0).1 d hd
    simp only at k1 k2 k0
    constructor <;> linarith
  have cr : ∀ a < 3, ∀ b < 3, bl Y fR a * cl Y fR b - bl Y fR b * cl Y fR a
      = - (bl X fL a * cl X fL b - bl X fL b * cl X fL a) := by
    intro a ha b hb
    have e1 := hPc a b
    have e2 := hPc' a b
    rw [(hPQ a ha).1, (hPQ a ha).2, (hPQ b hb).1, (hPQ b hb).2] at e2
    by_cases ho : oL < 4
    · rw [if_pos ho] at e1
      rw [if_neg (by have := opp.1 ho; omega)] at e2
      linarith
    · rw [if_neg ho] at e1
      rw [if_pos (by by_contra h4; exact ho (opp.2 (by omega)))] at e2
      linarith
  have m1 : (j + 1) % 3 < 3 := Nat.mod_lt _ (by omega)
  have m2 : (j + 2) % 3 < 3 := Nat.mod_lt _ (by omega)
  unfold faceNormal
  rw [(tans Y fR _).1, (tans Y fR _).2, (tans Y fR _).1, (tans Y fR _).2,
    (tans X fL _).1, (tans X fL _).2, (tans X fL _).1, (tans X fL _).2]
  exact cr _ m1 _ m2

theorem famPoly_zero_derivative (t : Fam) : derivative (famPoly t 0 0) = 0 :=
  derivative_of_natDegree_zero (by have := famPoly_degree t 0 0 (le_refl 0); omega)

theorem dphi3_zero (t : Fam) (i : ℕ) (x : ℝ × ℝ × ℝ) : dphi3 t 0 0 i x = 0 := by
  unfold dphi3
  simp [famPoly_zero_derivative]

theorem famPoly_zero_eval (t : Fam) (x : ℝ) : (famPoly t 0 0).eval x = 1 := by
  have := famOne_eval t 0 x
  cases t <;> simpa [famOne] using this

theorem phi3_zero (t : Fam) (x : ℝ × ℝ × ℝ) : phi3 t 0 0 x = 1 := by
  unfold phi3
  simp [famPoly_zero_eval]

/-- the face terms of order 0 -/
theorem faceMetric_hex {m : GMesh ℝ} (hq : HexMesh m) (t : Fam) (ns : ℕ)
    (vf : (ℕ → ℝ) → ℕ → ℝ) (nf : (ℕ → ℝ) → (ℕ → ℝ) → (ℕ → ℝ) → ℕ → ℝ) (e j g : ℕ) (hj : j < 3) (f : IFace)
    (hg : m.faces[g]? = some f) :
    faceMetric (hexDisc t 0 ns vf nf) (hexGeom t 0 m) e 0 j g f =
      (if f.elemL = e then faceNormal (fileCoords m e) f.faceL (0, 0) j * (∑ i ∈ range 2, glW 3 i) ^ 2 else 0) +
      (if f.elemR = e then faceNormal (fileCoords m e) f.faceR (0, 0) j * (∑ i ∈ range 2, glW 3 i) ^ 2 else 0) := by
  have hmem : f ∈ m.faces := List.mem_of_getElem? hg
  have hat : faceAt m g = f := by unfold faceAt; rw [hg]; rfl
  have hsum := sum_normals 0 (by unfold tableOK; omega) (fileCoords m f.elemL) f.faceL j
  obtain ⟨shift, hsh⟩ := hq.match_ f hmem
  have hcen := centre_normals (hq.faceL f hmem).1 (hq.faceR f hmem).1 (hq.faceL f hmem).2 (hq.faceR f hmem).2
    (hq.opposite f hmem) shift hsh j hj
  have hm : faceMetric (hexDisc t 0 ns vf nf) (hexGeom t 0 m) e 0 j g f
      = ((if f.elemL = e then 1 else 0) - (if f.elemR = e then 1 else 0)) *
        ∑ q ∈ range ((0 + 2) * (0 + 2)), wt2 0 q *
          faceNormal (fileCoords m f.elemL) f.faceL ((facePt2 0 q).2, (facePt2 0 q).1) j := by
    unfold faceMetric
    rw [Finset.mul_sum]
    refine Finset.sum_congr rfl fun iq _ => ?_
    show ((if f.elemL = e then phi3 t 0 0 _ else 0) - (if f.elemR = e then phi3 t 0 0 _ else 0)) *
      (faceNormal (fileCoords m (faceAt m g).elemL) (faceAt m g).faceL ((facePt2 0 iq).2, (facePt2 0 iq).1) j * wt2 0 iq) = _
    rw [phi3_zero, phi3_zero, hat]; ring
  rw [hm, hsum]
  by_cases h1 : f.elemL = e <;> by_cases h2 : f.elemR = e
  · subst h1
    simp only [h2, if_true] at hcen ⊢
    rw [hcen]; ring
  · subst h1; simp [h2]
  · subst h2; simp only [h1, if_false, if_true, hcen]; ring
  · simp [h1, h2]

/-- sum over the faces of the mesh -/
theorem faceMetric_sum_hex {m : GMesh ℝ} (hq : HexMesh m) (t : Fam) (ns : ℕ)
    (vf : (ℕ → ℝ) → ℕ → ℝ) (nf : (ℕ → ℝ) → (ℕ → ℝ) → (ℕ → ℝ) → ℕ → ℝ) (e j : ℕ) (hj : j < 3) :
    (m.faces.zipIdx.map fun x => faceMetric (hexDisc t 0 ns vf nf) (hexGeom t 0 m) e 0 j x.2 x.1).sum
      = ∑ k ∈ range 6, if (e, k) ∈ sideList m then
          faceNormal (fileCoords m e) k (0, 0) j * (∑ i ∈ range 2, glW 3 i) ^ 2 else 0 := by
  rw [← sum_sides (sideList m) hq.sides ?_ e
    (fun k => faceNormal (fileCoords m e) k (0, 0) j * (∑ i ∈ range 2, glW 3 i) ^ 2)]
  · have h1 : (m.faces.zipIdx.map fun x => faceMetric (hexDisc t 0 ns vf nf) (hexGeom t 0 m) e 0 j x.2 x.1)
        = m.faces.zipIdx.map ((fun f : IFace =>
          (if f.elemL = e then faceNormal (fileCoords m e) f.faceL (0, 0) j * (∑ i ∈ range 2, glW 3 i) ^ 2 else 0) +
          (if f.elemR = e then faceNormal (fileCoords m e) f.faceR (0, 0) j * (∑ i ∈ range 2, glW 3 i) ^ 2 else 0)) ∘ Prod.fst) :=
      List.map_congr_left fun x hx => faceMetric_hex hq t ns vf nf e j x.2 hj x.1 (mem_zipIdx_lt hx)
    rw [h1, ← List.map_map, List.zipIdx_map_fst]
    unfold sideList
    generalize m.faces = l
    induction l with
    | nil => rfl
    | cons f l ih => simp [ih, add_assoc]
  · intro s hs
    obtain ⟨f, hf, hs⟩ := List.mem_flatMap.1 hs
    simp only [List.mem_cons, List.not_mem_nil, or_false] at hs
    rcases hs with rfl | rfl
    · exact (hq.faceL f hf).1
    · exact (hq.faceR f hf).1

/-- order 0, no boundary: the metric identity is exact, whatever the shape of the elements -/
theorem metricIdentity_hex_zero {m : GMesh ℝ} (hq : HexMesh m) (t : Fam) (ns : ℕ)
    (vf : (ℕ → ℝ) → ℕ → ℝ) (nf : (ℕ → ℝ) → (ℕ → ℝ) → (ℕ → ℝ) → ℕ → ℝ) (e : ℕ)
    (hnb : ∀ k < 6, (e, k) ∈ sideList m) :
    MetricIdentity (hexDisc t 0 ns vf nf) m (hexGeom t 0 m) e := by
  intro b hb j hj
  have hb' : b < (0 + 1) * (0 + 1) * (0 + 1) := hb
  obtain rfl : b = 0 := by omega
  rw [faceMetric_sum_hex hq t ns vf nf e j hj,
    Finset.sum_congr rfl fun k hk => if_pos (hnb k (Finset.mem_range.1 hk)), ← Finset.sum_mul,
    normals_closed _ j hj, zero_mul]
  unfold volMetric
  refine Finset.sum_eq_zero fun q _ => Finset.sum_eq_zero fun i _ => ?_
  show dphi3 t 0 0 i (volPt3 0 q) * _ * _ * _ = 0
  rw [dphi3_zero]; ring

end DG
