import Verif.Lemmas.SetupQuad
import Verif.Props.Solver

/-! The geometry every rank builds on bilinear quadrilaterals is the restriction of the textbook
geometry of the mesh. -/
namespace DG
open Finset Polynomial

/-! ### only the four corners matter -/

theorem quad_congr {X Y : ℕ → ℕ → ℝ} (h : ∀ i < 4, ∀ d, X i d = Y i d) :
    quadMap X = quadMap Y ∧ quadDet X = quadDet Y ∧ quadInvJac X = quadInvJac Y ∧
      ∀ f < 4, ∀ j, sideNormal X f j = sideNormal Y f j := by
  have a0 := h 0 (by omega)
  have a1 := h 1 (by omega)
  have a2 := h 2 (by omega)
  have a3 := h 3 (by omega)
  have e1 : quadXi X = quadXi Y := by
    funext η d; simp only [quadXi, a0, a1, a2, a3]
  have e2 : quadEta X = quadEta Y := by
    funext ξ d; simp only [quadEta, a0, a1, a2, a3]
  refine ⟨by funext ξ η d; simp only [quadMap, a0, a1, a2, a3], ?_, ?_, ?_⟩
  · funext ξ η; simp only [quadDet, e1, e2]
  · funext ξ η i j; simp only [quadInvJac, quadDet, e1, e2]
  · intro f hf j
    have hF : f = 0 ∨ f = 1 ∨ f = 2 ∨ f = 3 := by omega
    rcases hF with rfl | rfl | rfl | rfl <;> simp [sideNormal, sideTo, sideFrom, a0, a1, a2, a3]

theorem quadInvMass_congr {X Y : ℕ → ℕ → ℝ} (h : ∀ i < 4, ∀ d, X i d = Y i d) (t : Fam) (p : ℕ) :
    quadInvMass t p X = quadInvMass t p Y := by
  have e : ∀ o, quadMass t p o X = quadMass t p o Y := by
    intro o; funext a b; simp only [quadMass, (quad_congr h).2.1]
  funext i j
  simp only [quadInvMass, e]

/-! ### mass matrix -/

theorem phi_indep (t : Fam) (p n : ℕ) (hn : p + 1 ≤ n) (x : ℕ → ℝ)
    (hx : ∀ i < n, ∀ j < n, x i = x j → i = j) :
    IndepOn (n * n) ((p + 1) * (p + 1)) (fun q b => phi t p b (x (q % n)) (x (q / n))) := by
  have h1 := famPoly_indep t p n hn x hx
  refine h1.kron _ _ _ h1 fun q1 h1 q2 h2 i hi j hj => ?_
  have e1 : (q2 * n + q1) % n = q1 := by rw [Nat.mul_comm, Nat.mul_add_mod, Nat.mod_eq_of_lt h1]
  have e2 : (q2 * n + q1) / n = q2 := by
    rw [Nat.mul_comm, Nat.mul_add_div (by omega), Nat.div_eq_of_lt h1, Nat.add_zero]
  have e3 : (j * (p + 1) + i) % (p + 1) = i := by rw [Nat.mul_comm, Nat.mul_add_mod, Nat.mod_eq_of_lt hi]
  have e4 : (j * (p + 1) + i) / (p + 1) = j := by
    rw [Nat.mul_comm, Nat.mul_add_div (by omega), Nat.div_eq_of_lt hi, Nat.add_zero]
  simp only [phi, e1, e2, e3, e4]

/-- the corner data of an element whose map preserves orientation -/
def DetPos (X : ℕ → ℕ → ℝ) : Prop :=
  ∀ ξ η : ℝ, -1 < ξ → ξ < 1 → -1 < η → η < 1 → 0 < quadDet X ξ η

theorem gl_rule_odd (o : ℕ) (h : tableOK (2 * o + 3)) : RuleOK (o + 2) (glX (2 * o + 3)) (glW (2 * o + 3)) := by
  have := (gl_rule _ h).2
  rwa [show (2 * o + 3) / 2 + 1 = o + 2 by omega] at this

theorem prod_lt {q n : ℕ} (h : q < n * n) : q % n < n ∧ q / n < n := by
  have hn : 0 < n := by
    rcases Nat.eq_zero_or_pos n with rfl | h'
    · simp at h
    · exact h'
  exact ⟨Nat.mod_lt _ hn, Nat.div_lt_of_lt_mul h⟩

theorem indepOn_congr {nq nb : ℕ} {B B' : ℕ → ℕ → ℝ} (h : IndepOn nq nb B)
    (he : ∀ q < nq, ∀ b < nb, B' q b = B q b) : IndepOn nq nb B' := by
  intro c hc
  refine h c fun q hq => ?_
  rw [← hc q hq]
  exact Finset.sum_congr rfl fun b hb => by rw [he q hq b (Finset.mem_range.1 hb)]

/-- the mass matrix of the setup is invertible and its inverse is stored -/
theorem mass_setup (t : Fam) (p : ℕ) (hp : orderFine t p) (ref : RefData ℝ)
    (hr : volRef (K := ℝ) (quadType t) .LagrangeQuad p 1 (massRuleOrder p) = some ref)
    (X : ℕ → ℕ → ℝ) (hX : DetPos X) (scr MM0 : ℕ → ℕ → ℝ) (i j : ℕ) (hi : i < (p + 1) * (p + 1))
    (hj : j < (p + 1) * (p + 1)) :
    invMass ref.nq ((p + 1) * (p + 1)) ref.wts (setupDjac 2 4 ref X) ref.val scr MM0 (fun _ _ => 0) i j
      = quadInvMass t p X i j := by
  obtain ⟨-, -, t3, -⟩ := tables_fine p hp.1
  have rule := gl_rule_odd _ t3
  obtain ⟨ref', r1, r2, r3, r4⟩ := volRef_spec t p (2 * p) hp.2 t3
  unfold massRuleOrder at hr
  rw [hr] at r1; cases r1
  have hw : ∀ q < ref.nq, 0 < ref.wts q := by
    intro q hq; rw [r2] at hq
    rw [(r4 q hq).1]
    exact mul_pos (rule.pos _ (prod_lt hq).1) (rule.pos _ (prod_lt hq).2)
  have hd : ∀ q < ref.nq, 0 < setupDjac 2 4 ref X q := by
    intro q hq; rw [r2] at hq
    rw [setupDjac_quad r3 X q hq]
    obtain ⟨a, b⟩ := rule.inside _ (prod_lt hq).1
    obtain ⟨c, d⟩ := rule.inside _ (prod_lt hq).2
    exact hX _ _ a b c d
  have hB : IndepOn ref.nq ((p + 1) * (p + 1)) ref.val := by
    rw [r2]
    exact indepOn_congr (phi_indep t p (2 * p + 2) (by omega) _ rule.inj)
      fun q hq b hb => ((r4 q hq).2 b hb).1
  have inv := (C29_first_call_inverse ref.nq ((p + 1) * (p + 1)) (Nat.mul_pos (by omega) (by omega)) ref.wts
    (setupDjac 2 4 ref X) ref.val scr MM0 hw hd hB).1
  have hM : toM ((p + 1) * (p + 1)) ((p + 1) * (p + 1))
      (massMatrix ref.nq ((p + 1) * (p + 1)) ref.wts (setupDjac 2 4 ref X) ref.val scr MM0)
      = Matrix.of fun a b : Fin ((p + 1) * (p + 1)) => quadMass t p (2 * p) X a b := by
    ext a b
    simp only [toM, Matrix.of_apply]
    rw [massMatrix_entry _ _ _ _ _ _ _ _ _ a.2 b.2, r2]
    unfold quadMass
    refine Finset.sum_congr rfl fun q hq => ?_
    have hq' := Finset.mem_range.1 hq
    rw [(r4 q hq').1, setupDjac_quad r3 X q hq', ((r4 q hq').2 a a.2).1, ((r4 q hq').2 b b.2).1]
  rw [hM] at inv
  have := Matrix.inv_eq_right_inv inv
  unfold quadInvMass
  rw [dif_pos ⟨hi, hj⟩, this]
  rfl

/-- `quadInvMass` is the inverse of the mass matrix -/
theorem quadInvMass_inv (t : Fam) (p : ℕ) (hp : orderFine t p) (X : ℕ → ℕ → ℝ) (hX : DetPos X)
    (a j : ℕ) (ha : a < (p + 1) * (p + 1)) (hj : j < (p + 1) * (p + 1)) :
    ∑ b ∈ range ((p + 1) * (p + 1)), quadMass t p (2 * p) X a b * quadInvMass t p X b j
      = if a = j then 1 else 0 := by
  obtain ⟨-, -, t3, -⟩ := tables_fine p hp.1
  have rule := gl_rule_odd _ t3
  have key := (C29_first_call_inverse ((2 * p + 2) * (2 * p + 2)) ((p + 1) * (p + 1))
    (Nat.mul_pos (by omega) (by omega))
    (fun q => glW (2 * (2 * p) + 3) (q % (2 * p + 2)) * glW (2 * (2 * p) + 3) (q / (2 * p + 2)))
    (fun q => quadDet X (glX (2 * (2 * p) + 3) (q % (2 * p + 2))) (glX (2 * (2 * p) + 3) (q / (2 * p + 2))))
    (fun q b => phi t p b (glX (2 * (2 * p) + 3) (q % (2 * p + 2))) (glX (2 * (2 * p) + 3) (q / (2 * p + 2))))
    (fun _ _ => 0) (fun _ _ => 0)
    (fun q hq => mul_pos (rule.pos _ (prod_lt hq).1) (rule.pos _ (prod_lt hq).2))
    (fun q hq => by
      obtain ⟨a, b⟩ := rule.inside _ (prod_lt hq).1
      obtain ⟨c, d⟩ := rule.inside _ (prod_lt hq).2
      exact hX _ _ a b c d)
    (phi_indep t p (2 * p + 2) (by omega) _ rule.inj)).1
  have hM : toM ((p + 1) * (p + 1)) ((p + 1) * (p + 1)) (quadMass t p (2 * p) X)
      = Matrix.of fun a b : Fin ((p + 1) * (p + 1)) => quadMass t p (2 * p) X a b := rfl
  have hM2 : toM ((p + 1) * (p + 1)) ((p + 1) * (p + 1))
      (massMatrix ((2 * p + 2) * (2 * p + 2)) ((p + 1) * (p + 1))
    (fun q => glW (2 * (2 * p) + 3) (q % (2 * p + 2)) * glW (2 * (2 * p) + 3) (q / (2 * p + 2)))
    (fun q => quadDet X (glX (2 * (2 * p) + 3) (q % (2 * p + 2))) (glX (2 * (2 * p) + 3) (q / (2 * p + 2))))
    (fun q b => phi t p b (glX (2 * (2 * p) + 3) (q % (2 * p + 2))) (glX (2 * (2 * p) + 3) (q / (2 * p + 2))))
    (fun _ _ => 0) (fun _ _ => 0))
      = Matrix.of fun a b : Fin ((p + 1) * (p + 1)) => quadMass t p (2 * p) X a b := by
    ext a b
    simp only [toM, Matrix.of_apply]
    rw [massMatrix_entry _ _ _ _ _ _ _ _ _ a.2 b.2]
    rfl
  rw [hM2] at key
  have hinv := Matrix.inv_eq_right_inv key
  rw [← hinv] at key
  have h := congrFun (congrFun key ⟨a, ha⟩) ⟨j, hj⟩
  rw [Matrix.mul_apply, Matrix.one_apply] at h
  rw [Finset.sum_range]
  simp only [Fin.mk.injEq] at h
  rw [← h]
  refine Finset.sum_congr rfl fun b _ => ?_
  simp only [quadInvMass, Matrix.of_apply]
  rw [dif_pos ⟨b.2, hj⟩]

/-! ### normals -/

theorem tanQuad_one (f : ℕ) (hf : f < 4) (X : ℕ → ℕ → ℝ) (x : ℝ) (d : ℕ) :
    tanQuad 1 f X x d = (X (sideTo f) d - X (sideFrom f) d) / 2 := by
  have h0 : ell' (K := ℝ) 1 0 x = -(1 / 2) := geo_dzero x
  have h1 : ell' (K := ℝ) 1 1 x = 1 / 2 := geo_done x
  have hF : f = 0 ∨ f = 1 ∨ f = 2 ∨ f = 3 := by omega
  unfold tanQuad
  simp only [Finset.sum_range_succ, Finset.sum_range_zero, h0, h1]
  rcases hF with rfl | rfl | rfl | rfl <;>
    simp [quadFaceLattice, quadNode, sideTo, sideFrom] <;> ring

/-- the two sides of a face of the mesh have opposite normals -/
theorem QuadMesh.normals {m : GMesh ℝ} (h : QuadMesh m) {f : IFace} (hf : f ∈ m.faces) (j : ℕ) :
    sideNormal (fileCoords m f.elemR) f.faceR j = - sideNormal (fileCoords m f.elemL) f.faceL j := by
  obtain ⟨sh, hs⟩ := h.match_ f hf
  have key : ∀ d < 2, fileCoords m f.elemL (sideTo f.faceL) d - fileCoords m f.elemL (sideFrom f.faceL) d
      = - (fileCoords m f.elemR (sideTo f.faceR) d - fileCoords m f.elemR (sideFrom f.faceR) d) := by
    intro d hd
    have e1 := hs 1 d hd
    have e2 := hs (-1) d hd
    have corner : ∀ (X : ℕ → ℕ → ℝ) (k : ℕ), k < 4 →
        quadMap X (sidePoint k 1).1 (sidePoint k 1).2 d = X (sideTo k) d ∧
        quadMap X (sidePoint k (-1)).1 (sidePoint k (-1)).2 d = X (sideFrom k) d := by
      intro X k hk
      have hK : k = 0 ∨ k = 1 ∨ k = 2 ∨ k = 3 := by omega
      rcases hK with rfl | rfl | rfl | rfl <;>
        constructor <;> simp [quadMap, sidePoint, sideTo, sideFrom] <;> ring
    rw [(corner _ _ (h.faceL f hf).1).1, (corner _ _ (h.faceR f hf).1).2] at e1
    rw [neg_neg, (corner _ _ (h.faceL f hf).1).2, (corner _ _ (h.faceR f hf).1).1] at e2
    rw [e1, e2]; ring
  unfold sideNormal
  split
  · have := key 1 (by omega); linarith
  · have := key 0 (by omega); linarith

section world
variable {m : GMesh ℝ} {nranks : ℕ} {part : List ℕ} {rms : ℕ → RankMesh ℝ}

theorem World.coords (w : World m nranks part rms) {r : ℕ} (hr : r < nranks) {k e : ℕ}
    (hk : (rms r).l2gElem[k]? = some e) (i : ℕ) (hi : i < m.npe) (d : ℕ) :
    elemCoords (rms r) k i d = fileCoords m e i d := by
  obtain ⟨enum, he, h⟩ := w.ranks r hr
  exact C56_element_coordinates m nranks part enum w.mesh w.parts he r hr _ h k e hk i hi d

theorem World.elem_lt (w : World m nranks part rms) {r : ℕ} (hr : r < nranks) {k e : ℕ}
    (hk : (rms r).l2gElem[k]? = some e) : e < m.numElems := by
  have := List.mem_of_getElem? hk
  rw [(w.res hr).l2gElem] at this
  exact (mem_owned.1 this).1

theorem faceNormals_quad (w : World m nranks part rms) (hq : QuadMesh m) {r : ℕ} (hr : r < nranks)
    (pts : List (ℝ × ℝ × ℝ)) {i g : ℕ} (hi : (rms r).l2gFace[i]? = some g) :
    ∃ ns, faceNormals .Quadrilateral 1 r (rms r) pts i = some ns ∧
      ∀ q < pts.length, ∀ j < 2, ((ns[q]?).getD fun _ => 0) j
        = sideNormal (fileCoords m (faceAt m g).elemL) (faceAt m g).faceL j := by
  obtain ⟨f, row, a1, a2, a3, a4, a5, a6, a7, a8, a9, a10, a12⟩ := w.record hr hi
  have hf : f ∈ m.faces := List.mem_of_getElem? a1
  have hfa : faceAt m g = f := by unfold faceAt; unfold IsFace at a1; rw [a1]; rfl
  rw [hfa]
  have main : ∀ (sg : ℝ) (k fc e : ℕ), fc < 4 → (rms r).l2gElem[k]? = some e →
      (∀ j < 2, sg * sideNormal (fileCoords m e) fc j = sideNormal (fileCoords m f.elemL) f.faceL j) →
      ∃ ns, (pts.mapM fun pt => (faceNormalQuad sg 1 fc (elemCoords (rms r) k) pt.1).map fun n (d : ℕ) =>
        if d = 0 then n.1 else if d = 1 then n.2 else 0) = some ns ∧
      ∀ q < pts.length, ∀ j < 2, ((ns[q]?).getD fun _ => 0) j
        = sideNormal (fileCoords m f.elemL) f.faceL j := by
    intro sg k fc e hfc hk hsg
    have hc : ∀ i < 4, ∀ d, elemCoords (rms r) k i d = fileCoords m e i d := by
      intro i hi' d; exact w.coords hr hk i (by rw [hq.npe]; exact hi') d
    have hn := (quad_congr hc).2.2.2 fc hfc
    refine ⟨_, mapM_some _ (fun pt (d : ℕ) => if d = 0 then sg * tanQuad 1 fc (elemCoords (rms r) k) pt.1 1 else
      if d = 1 then - (sg * tanQuad 1 fc (elemCoords (rms r) k) pt.1 0) else 0) pts (fun pt _ => by
        rw [faceNormalQuad_eq sg 1 (by omega) fc hfc]; rfl), ?_⟩
    intro q hql j hj
    rw [List.getElem?_map, List.getElem?_eq_getElem hql]
    simp only [Option.map_some, Option.getD_some]
    rw [← hsg j hj, ← hn j]
    have hJ : j = 0 ∨ j = 1 := by omega
    rcases hJ with rfl | rfl
    · simp [tanQuad_one fc hfc, sideNormal]
    · simp [tanQuad_one fc hfc, sideNormal]
  unfold faceNormals
  rw [a2]
  simp only [Option.bind_eq_bind, Option.bind_some]
  unfold normalSource
  by_cases hL : row.rankL = r
  · rw [if_pos hL]
    simp only [Option.bind_some]
    refine main 1 _ _ f.elemL (by rw [a6]; exact (hq.faceL f hf).1) (a10 hL) ?_
    intro j _; rw [one_mul, a6]
  · have hR : row.rankR = r := a5.resolve_left hL
    rw [if_neg hL, if_pos hR]
    simp only [Option.bind_some]
    refine main (-1) _ _ f.elemR (by rw [a8]; exact (hq.faceR f hf).1) (a12 hR) ?_
    intro j _; rw [a8, hq.normals hf]; ring

/-- **geometry**: `precompute_matrix_helpers` succeeds on every rank and stores the restriction of the
textbook geometry -/
theorem buildGeom_quad (w : World m nranks part rms) (hq : QuadMesh m) (t : Fam) (p ns : ℕ)
    (hp : orderFine t p) (vf : (ℕ → ℝ) → ℕ → ℝ) (nf : (ℕ → ℝ) → (ℕ → ℝ) → (ℕ → ℝ) → ℕ → ℝ)
    {r : ℕ} (hr : r < nranks) (scr MM0 : ℕ → ℕ → ℕ → ℝ) :
    ∃ g, buildGeom (quadType t) .LagrangeQuad p 1 r (rms r) scr MM0 = some g ∧
      GeomRestrict (quadDisc t p ns vf nf) (rms r) g (quadGeom t p m) := by
  obtain ⟨t1, t2, t3, -⟩ := tables_fine p hp.1
  have es : basisShape (quadType t) = some (.Quadrilateral, some .Segment) := by cases t <;> rfl
  have en : ∀ p, shapeNumBasis .Quadrilateral p = some ((p + 1) * (p + 1)) := fun _ => rfl
  obtain ⟨mref, m1, m2, m3, m4⟩ := volRef_spec t p (2 * p) hp.2 t3
  obtain ⟨ref, r1, r2, r3, r4⟩ := volRef_spec t p p hp.2 t2
  obtain ⟨fr, f1, f2, f3, f4, f5⟩ := faceRef_quad t p hp.2 t1
  have hlen : fr.pts.length = p + 1 := by rw [f3]; simp
  have hcoord : ∀ k e : ℕ, (rms r).l2gElem[k]? = some e →
      ∀ i < 4, ∀ d, elemCoords (rms r) k i d = fileCoords m e i d := by
    intro k e hk i hi d; exact w.coords hr hk i (by rw [hq.npe]; exact hi) d
  have hface : ∀ i < (rms r).numIFacesPart, ∃ g, (rms r).l2gFace[i]? = some g := by
    intro i hi
    have : i < (rms r).l2gFace.length := by rw [← w.numIF hr]; exact hi
    exact ⟨_, List.getElem?_eq_getElem this⟩
  have hN : ∀ i ∈ List.range (rms r).numIFacesPart,
      faceNormals .Quadrilateral 1 r (rms r) fr.pts i
        = some ((faceNormals .Quadrilateral 1 r (rms r) fr.pts i).getD []) := by
    intro i hi
    obtain ⟨g, hg⟩ := hface i (List.mem_range.1 hi)
    obtain ⟨nl, n1, -⟩ := faceNormals_quad w hq hr fr.pts hg
    rw [n1]; rfl
  have hmap := mapM_some _ _ _ hN
  unfold buildGeom
  rw [es]
  simp only [Option.bind_eq_bind, Option.bind_some, en]
  rw [show massRuleOrder p = 2 * p from rfl, m1, r1, f1]
  simp only [Option.bind_some]
  rw [hmap]
  simp only [Option.bind_some]
  refine ⟨_, rfl, ⟨?_, ?_, ?_, ?_⟩⟩
  · intro k e hk q hq'
    show setupDjac 2 4 ref (elemCoords (rms r) k) q = _
    rw [setupDjac_quad r3 _ q hq', (quad_congr (hcoord k e hk)).2.1]
    rfl
  · intro k e hk q hq' i hi j hj
    show setupIjac 2 4 ref (elemCoords (rms r) k) q i j = _
    rw [setupIjac_quad r3 _ q hq' i j hi hj, (quad_congr (hcoord k e hk)).2.2.1]
    rfl
  · intro k e hk i hi j hj
    have hX : DetPos (elemCoords (rms r) k) := by
      unfold DetPos
      rw [(quad_congr (hcoord k e hk)).2.1]
      exact hq.det e (w.elem_lt hr hk)
    have := mass_setup t p hp mref m1 (elemCoords (rms r) k) hX (scr k) (MM0 k) i j hi hj
    rw [quadInvMass_congr (hcoord k e hk)] at this
    exact this
  · intro i g hg q hq' j hj
    have hi : i < (rms r).numIFacesPart := by
      rw [w.numIF hr]; exact (List.getElem?_eq_some_iff.1 hg).1
    obtain ⟨nl, n1, n2⟩ := faceNormals_quad w hq hr fr.pts hg
    show (((((List.range (rms r).numIFacesPart).map fun i =>
      (faceNormals .Quadrilateral 1 r (rms r) fr.pts i).getD [])[i]?).getD [])[q]?.getD fun _ => 0) j = _
    rw [List.getElem?_map, List.getElem?_range hi]
    simp only [Option.map_some, Option.getD_some, n1]
    exact n2 q (by rw [hlen]; exact hq') j hj

/-- **initial state**: `init_state_from_fcn` succeeds on every rank and stores the projection of the
initial condition on its elements -/
theorem initState_quad (w : World m nranks part rms) (hq : QuadMesh m) (t : Fam) (p ns : ℕ)
    (hp : orderFine t p) (vf : (ℕ → ℝ) → ℕ → ℝ) (nf : (ℕ → ℝ) → (ℕ → ℝ) → (ℕ → ℝ) → ℕ → ℝ)
    {r : ℕ} (hr : r < nranks) (g : Geom ℝ) (hg : GeomRestrict (quadDisc t p ns vf nf) (rms r) g (quadGeom t p m))
    (ic : (ℕ → ℝ) → ℕ → ℝ) (rhs0 U0 : ℕ → ℕ → ℕ → ℝ) :
    ∃ u, initState (quadType t) .LagrangeQuad p 1 ns (rms r) g.iMM ic rhs0 U0 = some u ∧
      CoeffsRestrict (quadDisc t p ns vf nf) (rms r) u (quadInit t p m ic) := by
  obtain ⟨-, -, -, t4⟩ := tables_fine p hp.1
  have es : basisShape (quadType t) = some (.Quadrilateral, some .Segment) := by cases t <;> rfl
  have eg : basisShape .LagrangeQuad = some (.Quadrilateral, some .Segment) := rfl
  have en : ∀ p, shapeNumBasis .Quadrilateral p = some ((p + 1) * (p + 1)) := fun _ => rfl
  obtain ⟨ref, r1, r2, r3, r4⟩ := volRef_spec t p (2 * max p 1) hp.2 t4
  unfold initState
  rw [es, eg]
  simp only [Option.bind_eq_bind, Option.bind_some, en]
  rw [show projRuleOrder p = 2 * max p 1 from rfl, r1]
  refine ⟨_, rfl, ?_⟩
  intro k e hk b hb s hs
  have hcoord : ∀ i < 4, ∀ d, elemCoords (rms r) k i d = fileCoords m e i d := by
    intro i hi d; exact w.coords hr hk i (by rw [hq.npe]; exact hi) d
  have hb' : b < (p + 1) * (p + 1) := hb
  have hs' : s < ns := hs
  show l2Projection _ _ _ _ _ _ _ _ _ _ b s = _
  rw [l2_entry _ _ _ _ _ _ _ _ _ _ _ _ hb' hs']
  simp only [quadInit]
  refine Finset.sum_congr rfl fun j hj => ?_
  have hj' : j < (p + 1) * (p + 1) := Finset.mem_range.1 hj
  rw [hg.iMM k e hk b hb j hj']
  congr 1
  rw [r2]
  refine Finset.sum_congr rfl fun q hq' => ?_
  have hq'' := Finset.mem_range.1 hq'
  rw [(r4 q hq'').1, ((r4 q hq'').2 j hj').1, show shapeDim .Quadrilateral = 2 from rfl,
    show shapeNodes .Quadrilateral 1 = 4 from rfl, setupDjac_quad r3 _ q hq'', (quad_congr hcoord).2.1]
  congr 3
  funext d
  simp only [cArr]
  split
  · rename_i hd
    rw [refToPhys_quad r3 _ q hq'' d hd, (quad_congr hcoord).1]
  · rfl

end world
end DG
