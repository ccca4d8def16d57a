import Verif.Lemmas.RoundSetup
import Verif.Spec.Bits

/-!
The setup of the ranks in rounded arithmetic.
-/
namespace DG

section
variable {A : Arith} {κ : ℝ} {sh : ShapeType} {fsh : Option ShapeType} {t gt : BasisType} {p gorder nb ns ne : ℕ} {X : ℕ → ℕ → ℕ → ℝ}
  {ic : (ℕ → ℝ) → ℕ → ℝ} {ic' : (ℕ → A.K) → ℕ → A.K} {mass vol proj : RefData ℝ} {fr : FaceRef ℝ}
  {N1 N2 : ℕ → ℕ → List (ℕ → ℝ)} {mass' vol' proj' : RefData A.K} {fr' : FaceRef A.K}
  {X' : ℕ → ℕ → ℕ → A.K} {m : GMesh A.K} {nranks : ℕ} {part : List ℕ} {rms : ℕ → RankMesh A.K}

theorem World.elem_lt' {α : Type} {m : GMesh α} {nranks : ℕ} {part : List ℕ} {rms : ℕ → RankMesh α}
    (w : World m nranks part rms) {r : ℕ} (hr : r < nranks) {k e : ℕ} (hk : (rms r).l2gElem[k]? = some e) : e < m.numElems := by
  have := List.mem_of_getElem? hk
  rw [(w.res hr).l2gElem] at this
  exact (mem_owned.1 this).1

theorem MachineSetup.buildGeom
    (h : MachineSetup A κ sh t gt p gorder nb ns m.numElems X (fileCoords m) ic ic' mass vol proj fr N1 N2 mass' vol' proj' fr')
    (hsh : basisShape t = some (sh, fsh)) (hnb : shapeNumBasis sh p = some nb) (w : World m nranks part rms)
    (hn : m.npe = shapeNodes sh gorder) (hf : ∀ f ∈ m.faces, f.faceL < shapeFaces sh ∧ f.faceR < shapeFaces sh)
    {r : ℕ} (hr : r < nranks) (scr MM0 : ℕ → ℕ → ℕ → A.K) :
    ∃ g, DG.buildGeom t gt p gorder r (rms r) scr MM0 = some g ∧
      (∀ k e : ℕ, (rms r).l2gElem[k]? = some e → ∀ q < vol.nq,
        A.Close κ (g.djac k q) (setupDjac (shapeDim sh) (shapeNodes sh gorder) vol (X e) q)) ∧
      (∀ k e : ℕ, (rms r).l2gElem[k]? = some e → ∀ q < vol.nq, ∀ i < shapeDim sh, ∀ j < shapeDim sh,
        A.Close κ (g.ijac k q i j) (setupIjac (shapeDim sh) (shapeNodes sh gorder) vol (X e) q i j)) ∧
      (∀ k e : ℕ, (rms r).l2gElem[k]? = some e → ∀ i < nb, ∀ j < nb,
        A.Close κ (g.iMM k i j) (invMass mass.nq nb mass.wts (setupDjac (shapeDim sh) (shapeNodes sh gorder) mass (X e)) mass.val
          (fun _ _ => 0) (fun _ _ => 0) (fun _ _ => 0) i j)) ∧
      (∀ i a : ℕ, (rms r).l2gFace[i]? = some a → ∀ f, IsFace m a f → ∀ q < fr.nqf, ∀ j < shapeDim sh,
        (Owns part r f.elemL → A.Close κ (g.normals i q j) (((N1 f.elemL f.faceL)[q]?.getD fun _ => 0) j)) ∧
        (¬ Owns part r f.elemL → A.Close κ (g.normals i q j) (((N2 f.elemR f.faceR)[q]?.getD fun _ => 0) j))) ∧
      ∀ k e : ℕ, (rms r).l2gElem[k]? = some e → ∀ i < nb, ∀ j < nb, g.iMM k i j =
        invMass mass'.nq nb mass'.wts (setupDjac (shapeDim sh) (shapeNodes sh gorder) mass' (fileCoords m e)) mass'.val
          (fun _ _ => 0) (fun _ _ => 0) (fun _ _ => 0) i j := by
  have hnodes : ∀ k e : ℕ, (rms r).l2gElem[k]? = some e →
      SameNodes (shapeNodes sh gorder) (elemCoords (rms r) k) (fileCoords m e) := fun k e hk => by
    rw [← hn]; exact w.sameNodes hr hk
  have hface : ∀ i < (rms r).numIFacesPart, ∃ a f, (rms r).l2gFace[i]? = some a ∧ IsFace m a f := by
    intro i hi
    have : i < (rms r).l2gFace.length := by rw [← w.numIF hr]; exact hi
    obtain ⟨f, row, a1, -⟩ := w.record hr (List.getElem?_eq_getElem this)
    exact ⟨_, f, List.getElem?_eq_getElem this, a1⟩
  have hmem : ∀ {a : ℕ} {f : IFace}, IsFace m a f → f ∈ m.faces := fun h => List.mem_of_getElem? h
  have hN : ∀ i ∈ List.range (rms r).numIFacesPart,
      faceNormals sh gorder r (rms r) fr'.pts i = some ((faceNormals sh gorder r (rms r) fr'.pts i).getD []) := by
    intro i hi
    obtain ⟨a, f, h1, h2⟩ := hface i (List.mem_range.1 hi)
    obtain ⟨n1, n2⟩ := w.normalsOf hr hn hf h1 h2 fr'.pts
    have hF := w.mesh.faces f (hmem h2)
    by_cases ho : Owns part r f.elemL
    · obtain ⟨L, l1, -⟩ := h.normals1 f.elemL hF.1 f.faceL (hf f (hmem h2)).1
      rw [n1 ho, l1]; rfl
    · obtain ⟨L, l1, -⟩ := h.normals2 f.elemR hF.2 f.faceR (hf f (hmem h2)).2
      rw [n2 ho, l1]; rfl
  have hmap := mapM_some _ _ _ hN
  unfold DG.buildGeom
  rw [hsh]
  simp only [Option.bind_eq_bind, Option.bind_some, hnb]
  rw [h.massE, h.volE, h.faceE]
  simp only [Option.bind_some]
  rw [hmap]
  simp only [Option.bind_some]
  have hiM : ∀ k e : ℕ, (rms r).l2gElem[k]? = some e → ∀ i < nb, ∀ j < nb,
      invMass mass'.nq nb mass'.wts (setupDjac (shapeDim sh) (shapeNodes sh gorder) mass' (elemCoords (rms r) k)) mass'.val
        (scr k) (MM0 k) (fun _ _ => 0) i j =
        invMass mass'.nq nb mass'.wts (setupDjac (shapeDim sh) (shapeNodes sh gorder) mass' (fileCoords m e)) mass'.val
          (fun _ _ => 0) (fun _ _ => 0) (fun _ _ => 0) i j := fun k e hk =>
    invMass_congr (fun q _ => setupDjac_nodes (hnodes k e hk) q) (fun _ _ _ _ => rfl)
  refine ⟨_, rfl, ?_, ?_, ?_, ?_, hiM⟩
  · intro k e hk q hq
    show A.Close κ (setupDjac _ _ vol' (elemCoords (rms r) k) q) _
    rw [setupDjac_nodes (hnodes k e hk)]
    exact h.djac e (w.elem_lt' hr hk) q hq
  · intro k e hk q hq i hi j hj
    show A.Close κ (setupIjac _ _ vol' (elemCoords (rms r) k) q i j) _
    rw [setupIjac_nodes (hnodes k e hk)]
    exact h.ijac e (w.elem_lt' hr hk) q hq i hi j hj
  · intro k e hk i hi j hj
    show A.Close κ (invMass mass'.nq nb _ _ _ _ _ _ i j) _
    rw [hiM k e hk i hi j hj]
    exact h.iMM e (w.elem_lt' hr hk) i hi j hj
  · intro i a hi f hfa q hq j hj
    have hil : i < (rms r).numIFacesPart := by rw [w.numIF hr]; exact (List.getElem?_eq_some_iff.1 hi).1
    obtain ⟨n1, n2⟩ := w.normalsOf hr hn hf hi hfa fr'.pts
    have hF := w.mesh.faces f (hmem hfa)
    have e1 : (((((List.range (rms r).numIFacesPart).map fun i =>
      (faceNormals sh gorder r (rms r) fr'.pts i).getD [])[i]?).getD [])[q]?.getD fun _ => 0) j =
        (((faceNormals sh gorder r (rms r) fr'.pts i).getD [])[q]?.getD fun _ => 0) j := by
      rw [List.getElem?_map, List.getElem?_range hil]; rfl
    constructor
    · intro ho
      obtain ⟨L, l1, l2⟩ := h.normals1 f.elemL hF.1 f.faceL (hf f (hmem hfa)).1
      show A.Close κ ((((((List.range (rms r).numIFacesPart).map fun i =>
        (faceNormals sh gorder r (rms r) fr'.pts i).getD [])[i]?).getD [])[q]?.getD fun _ => 0) j) _
      rw [e1, n1 ho, l1]
      exact l2 q hq j hj
    · intro ho
      obtain ⟨L, l1, l2⟩ := h.normals2 f.elemR hF.2 f.faceR (hf f (hmem hfa)).2
      show A.Close κ ((((((List.range (rms r).numIFacesPart).map fun i =>
        (faceNormals sh gorder r (rms r) fr'.pts i).getD [])[i]?).getD [])[q]?.getD fun _ => 0) j) _
      rw [e1, n2 ho, l1]
      exact l2 q hq j hj

theorem MachineSetup.initState
    (h : MachineSetup A κ sh t gt p gorder nb ns m.numElems X (fileCoords m) ic ic' mass vol proj fr N1 N2 mass' vol' proj' fr')
    {gfsh : Option ShapeType} (hsh : basisShape t = some (sh, fsh)) (hgsh : basisShape gt = some (sh, gfsh))
    (hnb : shapeNumBasis sh p = some nb) (hgnb : shapeNumBasis sh gorder = some (shapeNodes sh gorder)) (w : World m nranks part rms)
    (hn : m.npe = shapeNodes sh gorder) {r : ℕ} (hr : r < nranks) {iMM : ℕ → ℕ → ℕ → A.K}
    (hi : ∀ k e : ℕ, (rms r).l2gElem[k]? = some e → ∀ i < nb, ∀ j < nb, iMM k i j =
        invMass mass'.nq nb mass'.wts (setupDjac (shapeDim sh) (shapeNodes sh gorder) mass' (fileCoords m e)) mass'.val
          (fun _ _ => 0) (fun _ _ => 0) (fun _ _ => 0) i j) (rhs0 U0 : ℕ → ℕ → ℕ → A.K) :
    ∃ u, DG.initState t gt p gorder ns (rms r) iMM ic' rhs0 U0 = some u ∧
      ∀ k e : ℕ, (rms r).l2gElem[k]? = some e → ∀ b < nb, ∀ s < ns, A.Close κ (u k b s)
        (l2Projection proj.nq nb ns (invMass mass.nq nb mass.wts
        (setupDjac (shapeDim sh) (shapeNodes sh gorder) mass (X e)) mass.val (fun _ _ => 0) (fun _ _ => 0) fun _ _ => 0)
        proj.val (setupDjac (shapeDim sh) (shapeNodes sh gorder) proj (X e)) proj.wts
        (fun q => ic (cArr (shapeDim sh) (refToPhys (shapeDim sh) (shapeNodes sh gorder) (proj.gval q) (X e))))
        (fun _ _ => 0) (fun _ _ => 0) b s) := by
  have hnodes : ∀ k e : ℕ, (rms r).l2gElem[k]? = some e →
      SameNodes (shapeNodes sh gorder) (elemCoords (rms r) k) (fileCoords m e) := fun k e hk => by
    rw [← hn]; exact w.sameNodes hr hk
  unfold DG.initState
  rw [hsh, hgsh]
  simp only [Option.bind_eq_bind, Option.bind_some, hnb, hgnb]
  rw [h.projE]
  simp only [Option.bind_some]
  refine ⟨_, rfl, ?_⟩
  intro k e hk b hb s hs
  show A.Close κ (l2Projection proj'.nq nb ns _ _ _ _ _ _ _ b s) _
  have := l2Projection_congr (nq := proj'.nq) (B := proj'.val) (w := proj'.wts) (rhs := rhs0 k) (rhs' := fun _ _ => 0) (U := U0 k)
    (U' := fun _ _ => 0) (hi k e hk)
    (fun q _ => setupDjac_nodes (dim := shapeDim sh) (ref := proj') (hnodes k e hk) q)
    (f := fun q => ic' (cArr (shapeDim sh) (refToPhys (shapeDim sh) (shapeNodes sh gorder) (proj'.gval q) (elemCoords (rms r) k))))
    (f' := fun q => ic' (cArr (shapeDim sh) (refToPhys (shapeDim sh) (shapeNodes sh gorder) (proj'.gval q) (fileCoords m e))))
    (ns := ns) (fun q _ s _ => by rw [refToPhys_nodes (hnodes k e hk)]) b hb s hs
  rw [this]
  exact h.init e (w.elem_lt' hr hk) b hb s hs

theorem MachineSetup.buildDisc
    (h : MachineSetup A κ sh t gt p gorder nb ns ne X X' ic ic' mass vol proj fr N1 N2 mass' vol' proj' fr')
    (hsh : basisShape t = some (sh, fsh)) (hnb : shapeNumBasis sh p = some nb) (vf : (ℕ → A.K) → ℕ → A.K)
    (nf : (ℕ → A.K) → (ℕ → A.K) → (ℕ → A.K) → ℕ → A.K) :
    DG.buildDisc t gt p gorder ns vf nf = some
      { dim := shapeDim sh, ns := ns, nb := nb, nq := vol'.nq, nface := shapeFaces sh,
        nqf := fr'.nqf, volBasis := vol'.val, volGrad := vol'.grad, volWts := vol'.wts,
        faceBasis := fr'.val, faceWts := fr'.wts,
        ptsOrder := fun o iq => (((facePtsOrder sh o fr'.nqf)[iq]?).getD 0).toNat,
        volFlux := vf, numFlux := nf } := by
  unfold DG.buildDisc
  rw [hsh]
  simp only [Option.bind_eq_bind, Option.bind_some, hnb, h.volE, h.faceE]

end
end DG
