import Verif.Lemmas.RoundRank
import Verif.Lemmas.SetupHex

/-!
The exact setup on quadrilaterals and hexahedra, and what the ranks of a computer compute instead.
-/
namespace DG
open Finset

/-- the exact setup of the mesh `m` gives the geometry `G` and the start `U`, normals from the right
element on the faces with `ok` -/
structure SetupIs (sh : ShapeType) (t gt : BasisType) (p gorder nb ns nq nqf : ℕ) (m : GMesh ℝ) (ok : IFace → Prop)
    (ic : (ℕ → ℝ) → ℕ → ℝ) (G : Geom ℝ) (U : Coeffs ℝ) (mass vol proj : RefData ℝ) (fr : FaceRef ℝ)
    (N1 N2 : ℕ → ℕ → List (ℕ → ℝ)) : Prop where
  exact : ExactSetup sh t gt p gorder nb m.numElems (fileCoords m) mass vol proj fr N1 N2
  nqE : vol.nq = nq
  nqfE : fr.nqf = nqf
  djac : ∀ e < m.numElems, ∀ q < nq, setupDjac (shapeDim sh) (shapeNodes sh gorder) vol (fileCoords m e) q = G.djac e q
  ijac : ∀ e < m.numElems, ∀ q < nq, ∀ i < shapeDim sh, ∀ j < shapeDim sh,
    setupIjac (shapeDim sh) (shapeNodes sh gorder) vol (fileCoords m e) q i j = G.ijac e q i j
  iMM : ∀ e < m.numElems, ∀ i < nb, ∀ j < nb,
    invMass mass.nq nb mass.wts (setupDjac (shapeDim sh) (shapeNodes sh gorder) mass (fileCoords m e)) mass.val
      (fun _ _ => 0) (fun _ _ => 0) (fun _ _ => 0) i j = G.iMM e i j
  init : ∀ e < m.numElems, ∀ b < nb, ∀ s < ns, l2Projection proj.nq nb ns (invMass mass.nq nb mass.wts
        (setupDjac (shapeDim sh) (shapeNodes sh gorder) mass (fileCoords m e)) mass.val (fun _ _ => 0) (fun _ _ => 0) fun _ _ => 0)
        proj.val (setupDjac (shapeDim sh) (shapeNodes sh gorder) proj (fileCoords m e)) proj.wts
        (fun q => ic (cArr (shapeDim sh) (refToPhys (shapeDim sh) (shapeNodes sh gorder) (proj.gval q) (fileCoords m e))))
        (fun _ _ => 0) (fun _ _ => 0) b s = U e b s
  normalsL : ∀ (a : ℕ) (f : IFace), IsFace m a f → ∀ q < nqf, ∀ j < shapeDim sh,
    ((N1 f.elemL f.faceL)[q]?.getD fun _ => 0) j = G.normals a q j
  normalsR : ∀ (a : ℕ) (f : IFace), IsFace m a f → ok f → ∀ q < nqf, ∀ j < shapeDim sh,
    ((N2 f.elemR f.faceR)[q]?.getD fun _ => 0) j = G.normals a q j

theorem normals_list_quad (sg : ℝ) (f : ℕ) (hf : f < 4) (X : ℕ → ℕ → ℝ) (pts : List (ℝ × ℝ × ℝ)) :
    ∃ L, nodesNormals .Quadrilateral 1 sg f X pts = some L ∧
      ∀ q < pts.length, ∀ j < 2, ((L[q]?).getD fun _ => 0) j = sg * sideNormal X f j := by
  refine ⟨_, mapM_some _ (fun pt (d : ℕ) => if d = 0 then sg * tanQuad 1 f X pt.1 1 else
    if d = 1 then - (sg * tanQuad 1 f X pt.1 0) else 0) pts (fun pt _ => by
      rw [faceNormalQuad_eq sg 1 (by omega) f hf]; rfl), ?_⟩
  intro q hql j hj
  rw [List.getElem?_map, List.getElem?_eq_getElem hql]
  simp only [Option.map_some, Option.getD_some]
  have hJ : j = 0 ∨ j = 1 := by omega
  rcases hJ with rfl | rfl
  · simp [tanQuad_one f hf, sideNormal]
  · simp [tanQuad_one f hf, sideNormal]

theorem sq_one_or_four (p : ℕ) : (p + 1) * (p + 1) = 1 ∨ 4 ≤ (p + 1) * (p + 1) := by
  rcases Nat.eq_zero_or_pos p with rfl | h
  · exact Or.inl rfl
  · exact Or.inr (by nlinarith)

theorem cube_one_or_four (p : ℕ) : (p + 1) * (p + 1) * (p + 1) = 1 ∨ 4 ≤ (p + 1) * (p + 1) * (p + 1) := by
  rcases sq_one_or_four p with h | h
  · left; rw [h]; rcases Nat.eq_zero_or_pos p with rfl | h'
    · rfl
    · exfalso; nlinarith
  · right; nlinarith

theorem setupIs_quad {m : GMesh ℝ} (hq : QuadMesh m) (t : Fam) (p ns : ℕ) (hp : orderFine t p)
    (ic : (ℕ → ℝ) → ℕ → ℝ) : ∃ mass vol proj fr N1 N2,
      SetupIs .Quadrilateral (quadType t) .LagrangeQuad p 1 ((p + 1) * (p + 1)) ns ((p + 2) * (p + 2)) (p + 1) m (fun _ => True) ic
        (quadGeom t p m) (quadInit t p m ic) mass vol proj fr N1 N2 := by
  obtain ⟨t1, t2, t3, t4⟩ := tables_fine p hp.1
  have rule3 := gl_rule_odd _ t3
  have rule2 := gl_rule_odd _ t2
  obtain ⟨mass, m1, m2, m3, m4⟩ := volRef_spec t p (2 * p) hp.2 t3
  obtain ⟨vol, v1, v2, v3, v4⟩ := volRef_spec t p p hp.2 t2
  obtain ⟨proj, p1, p2, p3, p4⟩ := volRef_spec t p (2 * max p 1) hp.2 t4
  obtain ⟨fr, f1, f2, f3, f4, f5⟩ := faceRef_quad t p hp.2 t1
  have hlen : fr.pts.length = p + 1 := by rw [f3]; simp
  have hN := fun (sg : ℝ) (e f : ℕ) => show ∃ L, f < 4 →
      nodesNormals .Quadrilateral 1 sg f (fileCoords m e) fr.pts = some L ∧
      ∀ q < fr.pts.length, ∀ j < 2, ((L[q]?).getD fun _ => 0) j = sg * sideNormal (fileCoords m e) f j by
    by_cases hf : f < 4
    · obtain ⟨L, h⟩ := normals_list_quad sg f hf (fileCoords m e) fr.pts
      exact ⟨L, fun _ => h⟩
    · exact ⟨[], fun h => absurd h hf⟩
  choose N hN using hN
  have hMM : ∀ e < m.numElems, ∀ i < (p + 1) * (p + 1), ∀ j < (p + 1) * (p + 1),
      invMass mass.nq ((p + 1) * (p + 1)) mass.wts (setupDjac 2 4 mass (fileCoords m e)) mass.val
        (fun _ _ => 0) (fun _ _ => 0) (fun _ _ => 0) i j = quadInvMass t p (fileCoords m e) i j :=
    fun e he i hi j hj => mass_setup t p hp mass m1 (fileCoords m e) (hq.det e he) _ _ i j hi hj
  refine ⟨mass, vol, proj, fr, N 1, N (-1), ⟨Or.inl rfl, sq_one_or_four p, m1, v1, p1, f1, ?_, ?_, ?_, ?_⟩, v2, f2,
    ?_, ?_, hMM, ?_, ?_, ?_⟩
  · intro e he q hq'
    rw [v2] at hq'
    show setupDjac 2 4 vol _ q ≠ 0
    rw [setupDjac_quad v3 _ q hq']
    obtain ⟨a, b⟩ := rule2.inside _ (prod_lt hq').1
    obtain ⟨c, d⟩ := rule2.inside _ (prod_lt hq').2
    exact (hq.det e he _ _ a b c d).ne'
  · intro e he k hk
    refine mass_minors mass.nq _ mass.wts _ mass.val _ _ ?_ ?_ ?_ (k + 1) hk
    · intro q hq; rw [m2] at hq
      rw [(m4 q hq).1]
      exact mul_pos (rule3.pos _ (prod_lt hq).1) (rule3.pos _ (prod_lt hq).2)
    · intro q hq'; rw [m2] at hq'
      show 0 < setupDjac 2 4 mass _ q
      rw [setupDjac_quad m3 _ q hq']
      obtain ⟨a, b⟩ := rule3.inside _ (prod_lt hq').1
      obtain ⟨c, d⟩ := rule3.inside _ (prod_lt hq').2
      exact hq.det e he _ _ a b c d
    · rw [m2]
      exact indepOn_congr (phi_indep t p (2 * p + 2) (by omega) _ rule3.inj) fun q hq b hb => ((m4 q hq).2 b hb).1
  · exact fun e _ f hf => (hN 1 e f hf).1
  · exact fun e _ f hf => (hN (-1) e f hf).1
  · intro e _ q hq'
    show setupDjac 2 4 vol _ q = _
    rw [setupDjac_quad v3 _ q hq']; rfl
  · intro e _ q hq' i hi j hj
    show setupIjac 2 4 vol _ q i j = _
    rw [setupIjac_quad v3 _ q hq' i j hi hj]; rfl
  · intro e he b hb s hs
    rw [l2_entry _ _ _ _ _ _ _ _ _ _ _ _ hb hs]
    simp only [quadInit]
    refine Finset.sum_congr rfl fun j hj => ?_
    have hj' : j < (p + 1) * (p + 1) := Finset.mem_range.1 hj
    rw [show shapeDim .Quadrilateral = 2 from rfl, show shapeNodes .Quadrilateral 1 = 4 from rfl, hMM e he b hb j hj']
    congr 1
    rw [p2]
    refine Finset.sum_congr rfl fun q hq' => ?_
    have hq'' := Finset.mem_range.1 hq'
    rw [(p4 q hq'').1, ((p4 q hq'').2 j hj').1, setupDjac_quad p3 _ q hq'']
    congr 3
    funext d
    simp only [cArr]
    split
    · rename_i hd
      rw [refToPhys_quad p3 _ q hq'' d hd]
    · rfl
  · intro a f hf q hq' j hj
    have hmem : f ∈ m.faces := List.mem_of_getElem? hf
    have hfa : faceAt m a = f := by unfold faceAt; unfold IsFace at hf; rw [hf]; rfl
    rw [(hN 1 f.elemL f.faceL (hq.faceL f hmem).1).2 q (by rw [hlen]; exact hq') j hj]
    show _ = sideNormal (fileCoords m (faceAt m a).elemL) (faceAt m a).faceL j
    rw [hfa, one_mul]
  · intro a f hf _ q hq' j hj
    have hmem : f ∈ m.faces := List.mem_of_getElem? hf
    have hfa : faceAt m a = f := by unfold faceAt; unfold IsFace at hf; rw [hf]; rfl
    rw [(hN (-1) f.elemR f.faceR (hq.faceR f hmem).1).2 q (by rw [hlen]; exact hq') j hj]
    show _ = sideNormal (fileCoords m (faceAt m a).elemL) (faceAt m a).faceL j
    rw [hfa, hq.normals hmem]; ring

theorem normals_list_hex (sg : ℝ) (f : ℕ) (hf : f < 6) (X : ℕ → ℕ → ℝ) (pts : List (ℝ × ℝ × ℝ)) :
    ∃ L, nodesNormals .Hexahedron 1 sg f X pts = some L ∧
      ∀ (q : ℕ) (pt : ℝ × ℝ × ℝ), pts[q]? = some pt → ∀ j < 3,
        ((L[q]?).getD fun _ => 0) j = sg * faceNormal X f (pt.2.1, pt.1) j := by
  refine ⟨_, mapM_some _ (fun pt => (faceNormalHex sg 1 f X (pt.1, pt.2.1)).getD fun _ => 0) pts (fun pt _ => by
    obtain ⟨n, h1, -⟩ := faceNormalHex_spec sg f hf X (pt.1, pt.2.1)
    rw [h1]; rfl), ?_⟩
  intro q pt hql j hj
  rw [List.getElem?_map, hql]
  obtain ⟨n, h1, h2⟩ := faceNormalHex_spec sg f hf X (pt.1, pt.2.1)
  simp only [Option.map_some, Option.getD_some, h1]
  rw [h2 j hj]

theorem setupIs_hex {m : GMesh ℝ} (hq : HexMesh m) (t : Fam) (p ns : ℕ)
    (hp : orderFine t p) (ic : (ℕ → ℝ) → ℕ → ℝ) : ∃ mass vol proj fr N1 N2,
      SetupIs .Hexahedron (hexType t) .LagrangeHex p 1 ((p + 1) * (p + 1) * (p + 1)) ns ((p + 2) * (p + 2) * (p + 2))
        ((p + 2) * (p + 2)) m (fun f => FlatFace (fileCoords m f.elemL) f.faceL) ic (hexGeom t p m) (hexInit t p m ic) mass vol proj fr N1 N2 := by
  obtain ⟨-, t2, t3, t4⟩ := tables_fine p hp.1
  have rule3 := gl_rule_odd _ t3
  obtain ⟨mass, m1, m2, m3, m4⟩ := volRef_spec3 t p (2 * p) hp.2 t3
  obtain ⟨vol, v1, v2, v3, v4⟩ := volRef_spec3 t p p hp.2 t2
  obtain ⟨proj, p1, p2, p3, p4⟩ := volRef_spec3 t p (2 * max p 1) hp.2 t4
  obtain ⟨fr, f1, f2, f3, f4, f5⟩ := faceRef_hex t p hp.2 t2
  have hdet : ∀ e < m.numElems, DetPos3 (fileCoords m e) := fun e he => hq.det e he
  have hN := fun (sg : ℝ) (e f : ℕ) => show ∃ L, f < 6 →
      nodesNormals .Hexahedron 1 sg f (fileCoords m e) fr.pts = some L ∧
      ∀ (q : ℕ) (pt : ℝ × ℝ × ℝ), fr.pts[q]? = some pt → ∀ j < 3,
        ((L[q]?).getD fun _ => 0) j = sg * faceNormal (fileCoords m e) f (pt.2.1, pt.1) j by
    by_cases hf : f < 6
    · obtain ⟨L, h⟩ := normals_list_hex sg f hf (fileCoords m e) fr.pts
      exact ⟨L, fun _ => h⟩
    · exact ⟨[], fun h => absurd h hf⟩
  choose N hN using hN
  have hMM : ∀ e < m.numElems, ∀ i < (p + 1) * (p + 1) * (p + 1), ∀ j < (p + 1) * (p + 1) * (p + 1),
      invMass mass.nq ((p + 1) * (p + 1) * (p + 1)) mass.wts (setupDjac 3 8 mass (fileCoords m e)) mass.val
        (fun _ _ => 0) (fun _ _ => 0) (fun _ _ => 0) i j = hexInvMass t p (fileCoords m e) i j := by
    intro e he i hi j hj
    rw [m2]
    exact (hexMass_right t p hp (fileCoords m e) (hdet e he) _ _ mass.val
      (fun q hq b hb => ((m4 q hq).2 b hb).1) mass.wts (setupDjac 3 8 mass (fileCoords m e))
      (fun q hq => (m4 q hq).1) (fun q hq => setupDjac_hex m3 _ q hq) i j hi hj).1
  have hpt : ∀ q < (p + 2) * (p + 2), fr.pts[q]? = some ((facePt2 p q).1, (facePt2 p q).2, 0) := by
    intro q hq2; rw [f3, List.getElem?_map, List.getElem?_range hq2]; rfl
  refine ⟨mass, vol, proj, fr, N 1, N (-1), ⟨Or.inr rfl, cube_one_or_four p, m1, v1, p1, f1, ?_, ?_, ?_, ?_⟩, v2, f2,
    ?_, ?_, hMM, ?_, ?_, ?_⟩
  · intro e he q hq'
    rw [v2] at hq'
    show setupDjac 3 8 vol _ q ≠ 0
    rw [setupDjac_hex v3 _ q hq']
    exact ((hdet e he).at _ t2 q hq').ne'
  · intro e he k hk
    refine mass_minors mass.nq _ mass.wts _ mass.val _ _ ?_ ?_ ?_ (k + 1) hk
    · intro q hq; rw [m2] at hq
      rw [(m4 q hq).1]
      exact wt3_pos _ t3 q hq
    · intro q hq'; rw [m2] at hq'
      show 0 < setupDjac 3 8 mass _ q
      rw [setupDjac_hex m3 _ q hq']
      exact (hdet e he).at _ t3 q hq'
    · rw [m2]
      exact indepOn_congr (phi3_indep t p (2 * p + 2) (by omega) _ rule3.inj) fun q hq b hb => ((m4 q hq).2 b hb).1
  · exact fun e _ f hf => (hN 1 e f hf).1
  · exact fun e _ f hf => (hN (-1) e f hf).1
  · intro e _ q hq'
    show setupDjac 3 8 vol _ q = _
    rw [setupDjac_hex v3 _ q hq']; rfl
  · intro e _ q hq' i hi j hj
    show setupIjac 3 8 vol _ q i j = _
    rw [setupIjac_hex v3 _ q hq' i j hi hj]; rfl
  · intro e he b hb s hs
    rw [l2_entry _ _ _ _ _ _ _ _ _ _ _ _ hb hs]
    simp only [hexInit]
    refine Finset.sum_congr rfl fun j hj => ?_
    have hj' : j < (p + 1) * (p + 1) * (p + 1) := Finset.mem_range.1 hj
    rw [show shapeDim .Hexahedron = 3 from rfl, show shapeNodes .Hexahedron 1 = 8 from rfl, hMM e he b hb j hj']
    congr 1
    rw [p2]
    refine Finset.sum_congr rfl fun q hq' => ?_
    have hq'' := Finset.mem_range.1 hq'
    rw [(p4 q hq'').1, ((p4 q hq'').2 j hj').1, setupDjac_hex p3 _ q hq'']
    congr 3
    funext d
    simp only [cArr]
    split
    · rename_i hd
      rw [refToPhys_hex p3 _ q hq'' d hd]
    · rfl
  · intro a f hf q hq' j hj
    have hmem : f ∈ m.faces := List.mem_of_getElem? hf
    have hfa : faceAt m a = f := by unfold faceAt; unfold IsFace at hf; rw [hf]; rfl
    rw [(hN 1 f.elemL f.faceL (hq.faceL f hmem).1).2 q _ (hpt q hq') j hj, one_mul, ← hfa]
    rfl
  · intro a f hf hc q hq' j hj
    have hmem : f ∈ m.faces := List.mem_of_getElem? hf
    have hfa : faceAt m a = f := by unfold faceAt; unfold IsFace at hf; rw [hf]; rfl
    obtain ⟨sh, hs⟩ := hq.match_ f hmem
    have hopp := flat_normals (hq.faceL f hmem).1 (hq.faceR f hmem).1 (hq.faceL f hmem).2 (hq.faceR f hmem).2
      (hq.opposite f hmem) hc sh hs
    rw [(hN (-1) f.elemR f.faceR (hq.faceR f hmem).1).2 q _ (hpt q hq') j hj,
      hopp _ ((facePt2 p q).2, (facePt2 p q).1) j hj, neg_mul_neg, one_mul, ← hfa]
    rfl

end DG
