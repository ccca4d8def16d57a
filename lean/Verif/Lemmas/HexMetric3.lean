import Verif.Lemmas.HexMetric
import Verif.Lemmas.HexMetric2
import Verif.Props.SetupHex

/-!
The face terms of a uniform state on hexahedra: flat faces, and the sum over the basis functions on any
faces.
-/
namespace DG
open Finset Polynomial

/-- the points of a face seen with orientation `o` -/
theorem facePt2_turn (t : Fam) (p ns : ℕ) (hp : tableOK (2 * p + 3)) (vf : (ℕ → ℝ) → ℕ → ℝ)
    (nf : (ℕ → ℝ) → (ℕ → ℝ) → (ℕ → ℝ) → ℕ → ℝ) (o : ℕ) (ho : o < 8) (i : ℕ) (hi : i < (p + 2) * (p + 2)) :
    facePt2 p ((hexDisc t p ns vf nf).ptsOrder o i) = turn o (facePt2 p i) := by
  have rule := gl_rule_odd _ hp
  obtain ⟨hr, hc⟩ := div_mod_lt hi
  obtain ⟨h1, h2⟩ := dihedral_lt (o := o) hr hc
  rw [hexDisc_ptsOrder _ _ _ _ _ _ ho, turn_eq o ho]
  unfold dihIdx facePt2
  rw [idx2_div h2, idx2_mod h2]
  generalize i / (p + 2) = r at *
  generalize i % (p + 2) = c at *
  have hO : o = 0 ∨ o = 1 ∨ o = 2 ∨ o = 3 ∨ o = 4 ∨ o = 5 ∨ o = 6 ∨ o = 7 := by omega
  rcases hO with rfl | rfl | rfl | rfl | rfl | rfl | rfl | rfl <;>
    simp only [dihedral, unorient, rule.symx r hr, rule.symx c hc]

/-- the rule is invariant under the symmetries of the square -/
theorem sum_turn (p : ℕ) (hp : tableOK (2 * p + 3)) (o : ℕ) (F : ℝ × ℝ → ℝ) :
    ∑ q ∈ range ((p + 2) * (p + 2)), wt2 p q * F (turn o (facePt2 p q))
      = ∑ q ∈ range ((p + 2) * (p + 2)), wt2 p q * F (facePt2 p q) := by
  have key : ∀ G : ℝ × ℝ → ℝ, ∑ q ∈ range ((p + 2) * (p + 2)), wt2 p q * G (facePt2 p q) =
      ∑ c ∈ range (p + 2), ∑ a ∈ range (p + 2), glW (2 * p + 3) a * glW (2 * p + 3) c *
        G (glX (2 * p + 3) a, glX (2 * p + 3) c) := fun G => sum_faces p fun a c => G (a, c)
  rw [key F, key fun s => F (turn o s)]
  set w := glW (2 * p + 3)
  set x := glX (2 * p + 3)
  have r1 : ∀ F : ℝ → ℝ → ℝ, ∑ c ∈ range (p + 2), ∑ a ∈ range (p + 2), w a * w c * F (- x a) (x c)
      = ∑ c ∈ range (p + 2), ∑ a ∈ range (p + 2), w a * w c * F (x a) (x c) := by
    intro F
    refine Finset.sum_congr rfl fun c _ => ?_
    have := gl_sym3 p hp fun s => w c * F s (x c)
    simpa only [mul_assoc] using this
  have rc : ∀ F : ℝ → ℝ → ℝ, ∑ c ∈ range (p + 2), ∑ a ∈ range (p + 2), w a * w c * F (x c) (x a)
      = ∑ c ∈ range (p + 2), ∑ a ∈ range (p + 2), w a * w c * F (x a) (x c) := by
    intro F
    rw [Finset.sum_comm]
    exact Finset.sum_congr rfl fun c _ => Finset.sum_congr rfl fun a _ => by ring
  have r2 : ∀ F : ℝ → ℝ → ℝ, ∑ c ∈ range (p + 2), ∑ a ∈ range (p + 2), w a * w c * F (x a) (- x c)
      = ∑ c ∈ range (p + 2), ∑ a ∈ range (p + 2), w a * w c * F (x a) (x c) := by
    intro F
    exact (rc fun a c => F a (-c)).symm.trans ((r1 fun a c => F c a).trans (rc F))
  unfold turn
  split_ifs
  · rfl
  · rw [← rc fun a c => F (a, c), ← r2 fun a c => F (c, a)]
  · rw [r1 fun a c => F (a, - c), r2 fun a c => F (a, c)]
  · rw [r1 fun a c => F (c, a), rc fun a c => F (a, c)]
  · rw [rc fun a c => F (a, c)]
  · rw [r1 fun a c => F (a, c)]
  · rw [r1 fun a c => F (- c, a), r2 fun a c => F (c, a), rc fun a c => F (a, c)]
  · rw [r2 fun a c => F (a, c)]

/-- the terms of a flat face -/
theorem faceMetric_flat {m : GMesh ℝ} (hq : HexMesh m) (t : Fam) (p ns : ℕ) (hp : tableOK (2 * p + 3))
    (vf : (ℕ → ℝ) → ℕ → ℝ) (nf : (ℕ → ℝ) → (ℕ → ℝ) → (ℕ → ℝ) → ℕ → ℝ) (e b j g : ℕ) (hj : j < 3) (f : IFace)
    (hg : m.faces[g]? = some f) (flat : FlatFace (fileCoords m f.elemL) f.faceL) :
    faceMetric (hexDisc t p ns vf nf) (hexGeom t p m) e b j g f =
      (if f.elemL = e then faceIntegral t p (fileCoords m e) f.faceL b j else 0) +
      (if f.elemR = e then faceIntegral t p (fileCoords m e) f.faceR b j else 0) := by
  have hmem : f ∈ m.faces := List.mem_of_getElem? hg
  have hat : faceAt m g = f := by unfold faceAt; rw [hg]; rfl
  obtain ⟨shift, hsh⟩ := hq.match_ f hmem
  have hfl := flat_normals (hq.faceL f hmem).1 (hq.faceR f hmem).1 (hq.faceL f hmem).2 (hq.faceR f hmem).2
    (hq.opposite f hmem) flat shift hsh
  set N := faceNormal (fileCoords m f.elemL) f.faceL (0, 0) j with hN
  have hL : faceIntegral t p (fileCoords m f.elemL) f.faceL b j =
      N * ∑ q ∈ range ((p + 2) * (p + 2)), wt2 p q * phi3 t p b (facePoint f.faceL (facePt2 p q)) := by
    unfold faceIntegral
    rw [Finset.mul_sum]
    refine Finset.sum_congr rfl fun q _ => ?_
    rw [faceNormal_flat _ _ flat (facePt2 p q) (0, 0), ← hN]; ring
  have hR : faceIntegral t p (fileCoords m f.elemR) f.faceR b j =
      - (N * ∑ q ∈ range ((p + 2) * (p + 2)), wt2 p q * phi3 t p b (facePoint f.faceR (facePt2 p q))) := by
    unfold faceIntegral
    rw [Finset.mul_sum, ← Finset.sum_neg_distrib]
    refine Finset.sum_congr rfl fun q _ => ?_
    rw [hfl (facePt2 p q) (0, 0) j hj, ← hN]; ring
  have hm : faceMetric (hexDisc t p ns vf nf) (hexGeom t p m) e b j g f
      = (if f.elemL = e then N * ∑ q ∈ range ((p + 2) * (p + 2)), wt2 p q *
          phi3 t p b (facePoint f.faceL (turn f.orientL (facePt2 p q))) else 0)
        - (if f.elemR = e then N * ∑ q ∈ range ((p + 2) * (p + 2)), wt2 p q *
          phi3 t p b (facePoint f.faceR (turn f.orientR (facePt2 p q))) else 0) := by
    have hterm : ∀ iq < (p + 2) * (p + 2),
        ((if f.elemL = e then phi3 t p b (facePoint f.faceL (facePt2 p ((hexDisc t p ns vf nf).ptsOrder f.orientL iq))) else 0)
          - (if f.elemR = e then phi3 t p b (facePoint f.faceR (facePt2 p ((hexDisc t p ns vf nf).ptsOrder f.orientR iq))) else 0)) *
        (faceNormal (fileCoords m (faceAt m g).elemL) (faceAt m g).faceL ((facePt2 p iq).2, (facePt2 p iq).1) j * wt2 p iq)
        = (if f.elemL = e then N * (wt2 p iq * phi3 t p b (facePoint f.faceL (turn f.orientL (facePt2 p iq)))) else 0)
          - (if f.elemR = e then N * (wt2 p iq * phi3 t p b (facePoint f.faceR (turn f.orientR (facePt2 p iq)))) else 0) := by
      intro iq hiq
      rw [facePt2_turn t p ns hp vf nf _ (hq.faceL f hmem).2 iq hiq, facePt2_turn t p ns hp vf nf _ (hq.faceR f hmem).2 iq hiq, hat,
        faceNormal_flat _ _ flat _ (0, 0), ← hN]
      by_cases h1 : f.elemL = e <;> by_cases h2 : f.elemR = e <;> simp [h1, h2] <;> ring
    have := Finset.sum_congr rfl fun iq hiq => hterm iq (Finset.mem_range.1 hiq)
    unfold faceMetric
    refine this.trans ?_
    rw [Finset.sum_sub_distrib]
    congr 1
    · split
      · rw [Finset.mul_sum]
      · simp
    · split
      · rw [Finset.mul_sum]
      · simp
  rw [hm, sum_turn p hp f.orientL fun s => phi3 t p b (facePoint f.faceL s),
    sum_turn p hp f.orientR fun s => phi3 t p b (facePoint f.faceR s)]
  by_cases h1 : f.elemL = e <;> by_cases h2 : f.elemR = e
  · rw [if_pos h1, if_pos h2, if_pos h1, if_pos h2, ← hL]
    rw [show fileCoords m e = fileCoords m f.elemL by rw [h1], show fileCoords m f.elemL = fileCoords m f.elemR by rw [h1, h2]] at *
    rw [hR]; ring
  · rw [if_pos h1, if_neg h2, if_pos h1, if_neg h2, ← hL, h1]; ring
  · rw [if_neg h1, if_pos h2, if_neg h1, if_pos h2, ← h2, hR]; ring
  · simp [h1, h2]

/-- the sum over the basis functions of the terms of any face -/
theorem faceMetric_total {m : GMesh ℝ} (hq : HexMesh m) (t : Fam) (p ns : ℕ) (hp : tableOK (2 * p + 3))
    (vf : (ℕ → ℝ) → ℕ → ℝ) (nf : (ℕ → ℝ) → (ℕ → ℝ) → (ℕ → ℝ) → ℕ → ℝ) (e j g : ℕ) (hj : j < 3) (f : IFace)
    (hg : m.faces[g]? = some f) :
    ∑ b ∈ range ((p + 1) * (p + 1) * (p + 1)), hexOne t p b * faceMetric (hexDisc t p ns vf nf) (hexGeom t p m) e b j g f =
      (if f.elemL = e then faceNormal (fileCoords m e) f.faceL (0, 0) j * (∑ i ∈ range (p + 2), glW (2 * p + 3) i) ^ 2 else 0) +
      (if f.elemR = e then faceNormal (fileCoords m e) f.faceR (0, 0) j * (∑ i ∈ range (p + 2), glW (2 * p + 3) i) ^ 2 else 0) := by
  have hmem : f ∈ m.faces := List.mem_of_getElem? hg
  have hat : faceAt m g = f := by unfold faceAt; rw [hg]; rfl
  have hsum := sum_normals p hp (fileCoords m f.elemL) f.faceL j
  obtain ⟨shift, hsh⟩ := hq.match_ f hmem
  have hcen := centre_normals (hq.faceL f hmem).1 (hq.faceR f hmem).1 (hq.faceL f hmem).2 (hq.faceR f hmem).2
    (hq.opposite f hmem) shift hsh j hj
  have hm : ∑ b ∈ range ((p + 1) * (p + 1) * (p + 1)), hexOne t p b * faceMetric (hexDisc t p ns vf nf) (hexGeom t p m) e b j g f
      = ((if f.elemL = e then 1 else 0) - (if f.elemR = e then 1 else 0)) *
        ∑ q ∈ range ((p + 2) * (p + 2)), wt2 p q *
          faceNormal (fileCoords m f.elemL) f.faceL ((facePt2 p q).2, (facePt2 p q).1) j := by
    unfold faceMetric
    simp only [Finset.mul_sum]
    rw [Finset.sum_comm]
    refine Finset.sum_congr rfl fun iq _ => ?_
    set A := facePoint f.faceL (facePt2 p ((hexDisc t p ns vf nf).ptsOrder f.orientL iq))
    set B := facePoint f.faceR (facePt2 p ((hexDisc t p ns vf nf).ptsOrder f.orientR iq))
    have h1 := hexOne_phi t p A
    have h2 := hexOne_phi t p B
    have ht : ∀ b, hexOne t p b * (((if f.elemL = e then phi3 t p b A else 0) - (if f.elemR = e then phi3 t p b B else 0)) *
        (faceNormal (fileCoords m (faceAt m g).elemL) (faceAt m g).faceL ((facePt2 p iq).2, (facePt2 p iq).1) j * wt2 p iq))
        = ((if f.elemL = e then 1 else 0) * (hexOne t p b * phi3 t p b A) - (if f.elemR = e then 1 else 0) * (hexOne t p b * phi3 t p b B)) *
          (wt2 p iq * faceNormal (fileCoords m f.elemL) f.faceL ((facePt2 p iq).2, (facePt2 p iq).1) j) := by
      intro b
      rw [hat]
      by_cases h1 : f.elemL = e <;> by_cases h2 : f.elemR = e <;> simp [h1, h2] <;> ring
    refine (Finset.sum_congr rfl fun b _ => ht b).trans ?_
    rw [← Finset.sum_mul, Finset.sum_sub_distrib, ← Finset.mul_sum, ← Finset.mul_sum, h1, h2]
    ring
  rw [hm, hsum]
  by_cases h1 : f.elemL = e <;> by_cases h2 : f.elemR = e
  · subst h1
    simp only [h2, if_true] at hcen ⊢
    rw [hcen]; ring
  · subst h1; simp [h2]
  · subst h2; simp only [h1, if_false, if_true, hcen]; ring
  · simp [h1, h2]

/-- regrouping a sum over faces by the sides of element `e` -/
theorem faces_to_sides {m : GMesh ℝ} (hq : HexMesh m) (e : ℕ) (T : ℕ → IFace → ℝ) (F : ℕ → ℝ)
    (h : ∀ g f, m.faces[g]? = some f → T g f = (if f.elemL = e then F f.faceL else 0) + (if f.elemR = e then F f.faceR else 0)) :
    (m.faces.zipIdx.map fun x => T x.2 x.1).sum = ∑ k ∈ range 6, if (e, k) ∈ sideList m then F k else 0 := by
  rw [← sum_sides (sideList m) hq.sides ?_ e F]
  · have h1 : (m.faces.zipIdx.map fun x => T x.2 x.1)
        = m.faces.zipIdx.map ((fun f : IFace => (if f.elemL = e then F f.faceL else 0) +
          (if f.elemR = e then F f.faceR else 0)) ∘ Prod.fst) :=
      List.map_congr_left fun x hx => h x.2 x.1 (mem_zipIdx_lt hx)
    rw [h1, ← List.map_map, List.zipIdx_map_fst]
    unfold sideList
    generalize m.faces = l
    induction l with
    | nil => rfl
    | cons f l ih => simp [ih, add_assoc]
  · intro s hs
    obtain ⟨f, hf, hs⟩ := List.mem_flatMap.1 hs
    simp only [List.mem_cons, List.not_mem_nil, or_false] at hs
    rcases hs with rfl | rfl
    · exact (hq.faceL f hf).1
    · exact (hq.faceR f hf).1

end DG
