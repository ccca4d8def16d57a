import Verif.Props.FreeStreamHex
import Verif.Props.SetupHexExample

/-!
C66: concrete cases of its hypotheses, and the case its theorems exclude: a mesh of two extruded
trapezoids, where a gas at rest is set in motion.
-/
namespace DG
open Finset Polynomial

/-! ### the parallelepipeds of `slabMesh` -/

theorem slabMesh_affine : AllAffine slabMesh := by
  intro e he k hk d hd
  have hE : e = 0 ∨ e = 1 := by
    have : e < 2 := he
    omega
  have hD : d = 0 ∨ d = 1 ∨ d = 2 := by omega
  have hK : k = 0 ∨ k = 1 ∨ k = 2 ∨ k = 3 ∨ k = 4 ∨ k = 5 := by omega
  rcases hE with rfl | rfl <;> rcases hK with rfl | rfl | rfl | rfl | rfl | rfl <;> rcases hD with rfl | rfl | rfl <;>
    simp [faceCorner, fileCoords, slabMesh, get0] <;> ring

theorem slabMesh_noBoundary : NoBoundary3 slabMesh := by
  intro e he k hk
  have h2 : e < 2 := he
  rw [boundary_iff, not_not]
  have : ∀ e < 2, ∀ k < 6, (e, k) ∈ sideList slabMesh := by decide
  exact this e h2 k hk

theorem slabMesh_faces : FacesNonzero slabMesh := by
  intro e he k hk s _ _ _ _
  have hE : e = 0 ∨ e = 1 := by
    have : e < 2 := he
    omega
  have hK : k = 0 ∨ k = 1 ∨ k = 2 ∨ k = 3 ∨ k = 4 ∨ k = 5 := by omega
  have red : ∀ j, faceNormal (fileCoords slabMesh e) k (0, 0) j ≠ 0 → faceNormal (fileCoords slabMesh e) k s j ≠ 0 := fun j h => by
    rwa [faceNormal_flat _ _ (slabMesh_affine e he k hk) s (0, 0)]
  have main : ∃ j < 3, faceNormal (fileCoords slabMesh e) k (0, 0) j ≠ 0 := by
    rcases hE with rfl | rfl <;> rcases hK with rfl | rfl | rfl | rfl | rfl | rfl
    all_goals first
      | (refine ⟨0, by omega, ?_⟩; norm_num [faceNormal, faceTan1, faceTan2, faceCorner, fileCoords, slabMesh, get0]; done)
      | (refine ⟨1, by omega, ?_⟩; norm_num [faceNormal, faceTan1, faceTan2, faceCorner, fileCoords, slabMesh, get0]; done)
      | (refine ⟨2, by omega, ?_⟩; norm_num [faceNormal, faceTan1, faceTan2, faceCorner, fileCoords, slabMesh, get0]; done)
  obtain ⟨j, hj, h⟩ := main
  exact ⟨j, hj, red j h⟩

/-- a uniform gas in 3D -/
noncomputable def windGas : Physics := ⟨.Euler, .HLLC, .Uniform, [1, 1, 2, 3, 10], 7 / 5, 1⟩

theorem windGas_admissible : Admissible 3 windGas.γ (fun v => windGas.icData.getD v 0) := by
  constructor
  · norm_num [windGas]
  · norm_num [windGas, pressure, internalEnergy, inner', vel, Finset.sum_range_succ]

/-- C66 on the example: a uniform wind on two ranks, first order, any number of steps, either stepper. -/
example (t : Fam) (st : Stepper) (dt : ℝ) (nsteps : ℕ) :
    ∃ rms d g u, World slabMesh 2 slabPart rms ∧ ∃ c k,
      Proto.Exec (solverProg d g rms 2 dt st (fun _ _ l => l) nsteps) (Proto.init (solverStart d rms st u)) c k ∧
      ∀ r < 2, ∃ s, (c.proc r).st.2 = some s ∧ ∀ i < (rms r).numElemsPart, ∀ v < 5, s.Uc i 0 v = u r i 0 v := by
  have hp : orderFine t 0 := ⟨by omega, by cases t <;> simp [famOK]⟩
  obtain ⟨rms, d, g, u, w, hr, c, k, hx, hf⟩ := slabExample t 0 5 hp (solverVolFlux 3 windGas fun _ _ => 0)
    (solverNumFlux 3 windGas fun _ _ _ => (fun _ => 0, fun _ => 0)) (solverIC 3 windGas fun _ _ => 0) st dt nsteps
  refine ⟨rms, d, g, u, w, c, k, hx, fun r hlt => ?_⟩
  obtain ⟨s, s1, s2⟩ := C66_order_zero_keeps_uniform_flow slabMesh 2 slabPart rms w slabMesh_hex slabMesh_affine slabMesh_faces
    slabMesh_noBoundary t windGas rfl (by norm_num [windGas]) rfl (by simp [windGas]) windGas_admissible _ _ _ d g u hr st dt _
    (fun _ _ l => List.Perm.refl l) nsteps k c hx hf r hlt
  exact ⟨s, s1, fun i hi v hv => (s2 i hi v hv).1⟩

/-! ### trapezoids -/

/-- two trapezoids `(0,0) (3/2,0) (1/2,1) (1,1)` and `(3/2,0) (2,0) (1,1) (5/2,1)`, extruded to height 1;
periodic in all directions (the upper side of one is the lower side of the other) -/
noncomputable def trapMesh : GMesh ℝ where
  numElems := 2
  npe := 8
  eind := [0, 1, 3, 4, 6, 7, 9, 10, 1, 2, 4, 5, 7, 8, 10, 11]
  coord := [[0, 0, 0], [3 / 2, 0, 0], [2, 0, 0], [1 / 2, 1, 0], [1, 1, 0], [5 / 2, 1, 0],
    [0, 0, 1], [3 / 2, 0, 1], [2, 0, 1], [1 / 2, 1, 1], [1, 1, 1], [5 / 2, 1, 1]]
  faces := [⟨0, 2, 0, 1, 4, 5⟩, ⟨1, 2, 0, 0, 4, 5⟩, ⟨0, 3, 0, 1, 1, 5⟩, ⟨1, 3, 0, 0, 1, 5⟩,
    ⟨0, 5, 0, 0, 0, 4⟩, ⟨1, 5, 0, 1, 0, 4⟩]

theorem trapMesh_hex : HexMesh trapMesh where
  npe := rfl
  det := by
    intro e he ξ η ζ h1 h2 h3 h4 h5 h6
    have hE : e = 0 ∨ e = 1 := by
      have : e < 2 := he
      omega
    unfold hexDet hexJac
    rw [Matrix.det_fin_three]
    rcases hE with rfl | rfl <;>
      simp [hexDer, fileCoords, trapMesh, get0] <;> ring_nf <;> linarith
  faceL := by decide
  faceR := by decide
  sides := by decide
  opposite := by decide
  match_ := by
    intro f hf
    simp only [trapMesh, List.mem_cons, List.not_mem_nil, or_false] at hf
    have key : ∀ (sh : ℕ → ℝ) (f : IFace), (∀ s : ℝ × ℝ, ∀ d, d = 0 ∨ d = 1 ∨ d = 2 →
        hexMap (fileCoords trapMesh f.elemL) (facePoint f.faceL (turn f.orientL s)) d =
          hexMap (fileCoords trapMesh f.elemR) (facePoint f.faceR (turn f.orientR s)) d + sh d) →
        ∃ shift : ℕ → ℝ, ∀ s : ℝ × ℝ, ∀ d < 3,
          hexMap (fileCoords trapMesh f.elemL) (facePoint f.faceL (turn f.orientL s)) d =
          hexMap (fileCoords trapMesh f.elemR) (facePoint f.faceR (turn f.orientR s)) d + shift d :=
      fun sh f h => ⟨sh, fun s d hd => h s d (by omega)⟩
    rcases hf with rfl | rfl | rfl | rfl | rfl | rfl
    · refine key (fun _ => 0) _ fun s d hd => ?_
      rcases hd with rfl | rfl | rfl <;> simp [hexMap, facePoint, turn, fileCoords, trapMesh, get0] <;> ring
    · refine key (fun d => if d = 0 then 2 else 0) _ fun s d hd => ?_
      rcases hd with rfl | rfl | rfl <;> simp [hexMap, facePoint, turn, fileCoords, trapMesh, get0] <;> ring
    · refine key (fun d => if d = 0 then -1 else if d = 1 then 1 else 0) _ fun s d hd => ?_
      rcases hd with rfl | rfl | rfl <;> simp [hexMap, facePoint, turn, fileCoords, trapMesh, get0] <;> ring
    · refine key (fun d => if d = 0 then 1 else if d = 1 then 1 else 0) _ fun s d hd => ?_
      rcases hd with rfl | rfl | rfl <;> simp [hexMap, facePoint, turn, fileCoords, trapMesh, get0] <;> ring
    · refine key (fun d => if d = 2 then 1 else 0) _ fun s d hd => ?_
      rcases hd with rfl | rfl | rfl <;> simp [hexMap, facePoint, turn, fileCoords, trapMesh, get0] <;> ring
    · refine key (fun d => if d = 2 then 1 else 0) _ fun s d hd => ?_
      rcases hd with rfl | rfl | rfl <;> simp [hexMap, facePoint, turn, fileCoords, trapMesh, get0] <;> ring

theorem trapMesh_ok : MeshOK trapMesh where
  eindLen := rfl
  nodes := by decide
  faces := by decide
  elemsFit := by decide
  nodesFit := by decide
  facesFit := by decide

theorem trapMesh_noBoundary : NoBoundary3 trapMesh := by
  intro e he k hk
  have h2 : e < 2 := he
  rw [boundary_iff, not_not]
  have : ∀ e < 2, ∀ k < 6, (e, k) ∈ sideList trapMesh := by decide
  exact this e h2 k hk

theorem trapMesh_faces : FacesNonzero trapMesh := by
  intro e he k hk s h1 h2 h3 h4
  have hE : e = 0 ∨ e = 1 := by
    have : e < 2 := he
    omega
  have hK : k = 0 ∨ k = 1 ∨ k = 2 ∨ k = 3 ∨ k = 4 ∨ k = 5 := by omega
  rcases hE with rfl | rfl <;> rcases hK with rfl | rfl | rfl | rfl | rfl | rfl
  all_goals first
    | (refine ⟨0, by omega, ?_⟩
       simp [faceNormal, faceTan1, faceTan2, faceCorner, fileCoords, trapMesh, get0]
       ring_nf
       first | (apply ne_of_gt; linarith) | (apply ne_of_lt; linarith))
    | (refine ⟨1, by omega, ?_⟩
       simp [faceNormal, faceTan1, faceTan2, faceCorner, fileCoords, trapMesh, get0]
       ring_nf
       first | (apply ne_of_gt; linarith) | (apply ne_of_lt; linarith))
    | (refine ⟨2, by omega, ?_⟩
       simp [faceNormal, faceTan1, faceTan2, faceCorner, fileCoords, trapMesh, get0]
       ring_nf
       first | (apply ne_of_gt; linarith) | (apply ne_of_lt; linarith))

/-- the basis function `ξ ζ` of the Legendre family -/
theorem phi3_xz (p : ℕ) (hp : 1 ≤ p) (x : ℝ × ℝ × ℝ) : phi3 .legendre p ((p + 1) * (p + 1) + 1) x = x.1 * x.2.2 := by
  have e1 : ((p + 1) * (p + 1) + 1) % (p + 1) = 1 := by
    rw [Nat.mul_add_mod, Nat.mod_eq_of_lt (by omega)]
  have e2 : ((p + 1) * (p + 1) + 1) / (p + 1) % (p + 1) = 0 := by
    rw [Nat.mul_add_div (by omega), Nat.div_eq_of_lt (by omega), add_zero, Nat.mod_self]
  have e3 : ((p + 1) * (p + 1) + 1) / ((p + 1) * (p + 1)) = 1 := by
    have : 1 < (p + 1) * (p + 1) := by nlinarith
    rw [Nat.add_div_left _ (by omega), Nat.div_eq_of_lt this]
  unfold phi3
  rw [e1, e2, e3]
  simp [famPoly, legPoly]

theorem trap_face_sum (p : ℕ) (hp : tableOK (2 * p + 3)) (F : ℝ × ℝ → ℝ) (G : ℝ → ℝ → ℝ)
    (h : ∀ s t, F (s, t) = G s t) :
    ∑ q ∈ range ((p + 2) * (p + 2)), wt2 p q * F (facePt2 p q) = ∑ c ∈ range (p + 2), ∑ a ∈ range (p + 2),
      glW (2 * p + 3) a * glW (2 * p + 3) c * G (glX (2 * p + 3) a) (glX (2 * p + 3) c) := by
  rw [← sum_faces p G]
  exact Finset.sum_congr rfl fun q _ => by rw [← h]

/-- **C66** (trapezoids).  On the mesh of two extruded trapezoids - without boundary, all faces planar - and for
every order from 1 up of the Legendre basis, the residual of the vertical momentum of a uniform gas at
rest is not zero: more than three tenths of the pressure for the basis function `ξ ζ`.  The normals are
taken at the points with the two face coordinates exchanged. -/
theorem C66_trapezoids_break_free_stream (p : ℕ) (hp : orderFine .legendre p) (hp1 : 1 ≤ p)
    (ph : Physics) (hE : ph.ptype = .Euler) (hγ : 1 < ph.γ) (junkV : (ℕ → ℝ) → ℕ → ℝ)
    (junkN : (ℕ → ℝ) → (ℕ → ℝ) → (ℕ → ℝ) → (ℕ → ℝ) × (ℕ → ℝ)) (u : ℕ → ℝ) (hu : Admissible 3 ph.γ u)
    (rest : ∀ i, 1 ≤ i → i ≤ 3 → u i = 0) :
    3 / 10 * pressure 3 ph.γ u <
      globalResidual (hexDisc .legendre p 5 (solverVolFlux 3 ph junkV) (solverNumFlux 3 ph junkN)) trapMesh
        (hexGeom .legendre p trapMesh) (uniformCoeffs (hexOne .legendre p) u) 0 ((p + 1) * (p + 1) + 1) 3 := by
  obtain ⟨-, t2, -, -⟩ := tables_fine p hp.1
  have hp7 : p ≤ 7 := hp.2
  set D := hexDisc .legendre p 5 (solverVolFlux 3 ph junkV) (solverNumFlux 3 ph junkN) with hD
  obtain ⟨hvol, hface⟩ := hex_hvol .legendre p 5 (solverVolFlux 3 ph junkV) (solverNumFlux 3 ph junkN)
  rw [C39_residual_is_metric_defect trapMesh D 8 (trapMesh_hex.conforming .legendre p 5 _ _) (hexDisc_order .legendre p 5 _ _)
    (hexOne .legendre p) hvol hface (hexGeom .legendre p trapMesh)
    (hex_normals_nonzero trapMesh_ok trapMesh_hex trapMesh_faces .legendre p 5 hp _ _) u
    (consistent_euler3 .legendre p ph hE hγ junkV junkN u hu) 0 _ 3 (by show 3 < 5; omega)]
  set b := (p + 1) * (p + 1) + 1 with hb
  have hblt : b < (p + 1) * (p + 1) * (p + 1) := by
    have : 4 ≤ (p + 1) * (p + 1) := by nlinarith
    rw [hb]; nlinarith
  -- the flux of the momentum
  have hF : ∀ j < 3, D.volFlux (cArr D.ns u) (j * D.ns + 3) = if j = 2 then pressure 3 ph.γ u else 0 := by
    intro j hj
    have := flux_axes (dim := 3) (Or.inr rfl) ph hE junkV u hu.ρ_pos.ne' 3 (by omega) j hj
    show solverVolFlux 3 ph junkV (cArr 5 u) (j * 5 + 3) = _
    rw [this]
    unfold eulerFlux
    rw [if_neg (by omega), if_pos (by omega), rest 3 (by omega) (by omega), zero_mul, zero_add]
    unfold axis
    by_cases h : j = 2 <;> simp [h, eq_comm]
  show _ < ∑ j ∈ range 3, _
  rw [Finset.sum_range_succ, Finset.sum_range_succ, Finset.sum_range_one, hF 0 (by omega), hF 1 (by omega), hF 2 (by omega)]
  simp only [if_true, OfNat.zero_ne_ofNat, OfNat.one_ne_ofNat, if_false, zero_mul, zero_add]
  -- sums of the rule
  set w := glW (2 * p + 3) with hw
  set x := glX (2 * p + 3) with hx
  have hz : ∑ i ∈ range (p + 2), w i * x i = 0 := by
    have := gl_sym3 p t2 fun s => s
    simp only [mul_neg, Finset.sum_neg_distrib] at this
    linarith
  have hW := gl_exact (2 * p + 3) t2 (1 : ℝ[X]) (by simp)
  have hA := gl_exact (2 * p + 3) t2 (X ^ 2 : ℝ[X]) (by simp)
  rw [show (2 * p + 3) / 2 + 1 = p + 2 by omega] at hW hA
  simp only [eval_one, mul_one, intervalIntegral.integral_const] at hW
  have hc1 : coeffSum (1 : ℝ[X]) = 1 := by simp [coeffSum]
  have hc2 : coeffSum (X ^ 2 : ℝ[X]) = 1 := by
    simp [coeffSum, Finset.sum_range_succ, coeff_X_pow]
  simp only [eval_pow, eval_X, integral_pow] at hA
  rw [hc1, abs_le] at hW
  rw [hc2, abs_le] at hA
  set W := ∑ i ∈ range (p + 2), w i with hWdef
  set A := ∑ i ∈ range (p + 2), w i * x i ^ 2 with hAdef
  norm_num at hW hA
  have double : ∀ (F : ℝ × ℝ → ℝ) (k l n o : ℝ), (∀ s t, F (s, t) = k * s + l * t + n * (s * t) + o * s ^ 2) →
      ∑ q ∈ range ((p + 2) * (p + 2)), wt2 p q * F (facePt2 p q) = o * (A * W) := by
    intro F k l n o h
    rw [trap_face_sum p t2 F _ h]
    calc _ = ∑ c ∈ range (p + 2), (w c * (k * ∑ a ∈ range (p + 2), w a * x a) + l * (w c * x c) * W
            + n * (w c * x c) * (∑ a ∈ range (p + 2), w a * x a) + o * w c * A) := by
          refine Finset.sum_congr rfl fun c _ => ?_
          rw [hWdef, hAdef]
          simp only [Finset.mul_sum, ← Finset.sum_add_distrib]
          exact Finset.sum_congr rfl fun a _ => by ring
      _ = o * (A * W) := by
          simp only [hz, mul_zero, zero_add, add_zero, Finset.sum_add_distrib, ← Finset.sum_mul, ← Finset.mul_sum]
          rw [← hWdef]; ring
  -- the true face integrals
  have hfi : ∑ k ∈ range 6, faceIntegral .legendre p (fileCoords trapMesh 0) k b 2 = 0 := by
    refine Finset.sum_eq_zero fun k hk => ?_
    have hk' := Finset.mem_range.1 hk
    have hK : k = 0 ∨ k = 1 ∨ k = 2 ∨ k = 3 ∨ k = 4 ∨ k = 5 := by omega
    unfold faceIntegral
    simp only [hb, phi3_xz p hp1]
    rcases hK with rfl | rfl | rfl | rfl | rfl | rfl
    · rw [double (fun y => (facePoint 0 y).1 * (facePoint 0 y).2.2 * faceNormal (fileCoords trapMesh 0) 0 y 2) 0 (1 / 4) (-1 / 8) 0, zero_mul]
      intro s t
      simp [facePoint, faceNormal, faceTan1, faceTan2, faceCorner, fileCoords, trapMesh, get0]
      ring
    · refine Finset.sum_eq_zero fun q _ => ?_
      simp [facePoint, faceNormal, faceTan1, faceTan2, faceCorner, fileCoords, trapMesh, get0]
    · refine Finset.sum_eq_zero fun q _ => ?_
      simp [facePoint, faceNormal, faceTan1, faceTan2, faceCorner, fileCoords, trapMesh, get0]
    · refine Finset.sum_eq_zero fun q _ => ?_
      simp [facePoint, faceNormal, faceTan1, faceTan2, faceCorner, fileCoords, trapMesh, get0]
    · refine Finset.sum_eq_zero fun q _ => ?_
      simp [facePoint, faceNormal, faceTan1, faceTan2, faceCorner, fileCoords, trapMesh, get0]
    · rw [double (fun y => (facePoint 5 y).1 * (facePoint 5 y).2.2 * faceNormal (fileCoords trapMesh 0) 5 y 2) (1 / 4) 0 (-1 / 8) 0, zero_mul]
      intro s t
      simp [facePoint, faceNormal, faceTan1, faceTan2, faceCorner, fileCoords, trapMesh, get0]
      ring
  have hed : EdgesLe (fileCoords trapMesh 0) (3 / 2) := by
    intro d hd
    have hD : d = 0 ∨ d = 1 ∨ d = 2 := by omega
    rcases hD with rfl | rfl | rfl <;> norm_num [fileCoords, trapMesh, get0, abs_le]
  have hvolM := metric_defect_hex .legendre p 5 t2 (solverVolFlux 3 ph junkV) (solverNumFlux 3 ph junkN) trapMesh 0
    (trapMesh_hex.det 0 (by show 0 < 2; omega)) (3 / 2) hed b 2 hblt (by omega)
  rw [hfi, sub_zero] at hvolM
  -- the terms of the scheme
  have hnorm : ∀ g q : ℕ, (hexGeom .legendre p trapMesh).normals g q 2 =
      faceNormal (fileCoords trapMesh (faceAt trapMesh g).elemL) (faceAt trapMesh g).faceL ((facePt2 p q).2, (facePt2 p q).1) 2 :=
    fun _ _ => rfl
  have hfm : (trapMesh.faces.zipIdx.map fun x => faceMetric D (hexGeom .legendre p trapMesh) 0 b 2 x.2 x.1).sum = - (A * W) / 4 := by
    have hlist : trapMesh.faces.zipIdx = [(⟨0, 2, 0, 1, 4, 5⟩, 0), (⟨1, 2, 0, 0, 4, 5⟩, 1), (⟨0, 3, 0, 1, 1, 5⟩, 2), (⟨1, 3, 0, 0, 1, 5⟩, 3),
      (⟨0, 5, 0, 0, 0, 4⟩, 4), (⟨1, 5, 0, 1, 0, 4⟩, 5)] := rfl
    have hflat : ∀ g (f : IFace), trapMesh.faces[g]? = some f → (f.faceL = 2 ∨ f.faceL = 3) →
        faceMetric D (hexGeom .legendre p trapMesh) 0 b 2 g f = 0 := by
      intro g f hg hf
      have hat : faceAt trapMesh g = f := by unfold faceAt; rw [hg]; rfl
      unfold faceMetric
      refine Finset.sum_eq_zero fun q _ => ?_
      rw [hnorm, hat]
      have hE : f.elemL = 0 ∨ f.elemL = 1 := by
        have := (trapMesh_ok.faces f (List.mem_of_getElem? hg)).1
        have : f.elemL < 2 := this
        omega
      rcases hE with h | h <;> rcases hf with h' | h' <;> rw [h, h'] <;>
        simp [faceNormal, faceTan1, faceTan2, faceCorner, fileCoords, trapMesh, get0]
    have h5 : faceMetric D (hexGeom .legendre p trapMesh) 0 b 2 5 ⟨1, 5, 0, 1, 0, 4⟩ = 0 := by
      unfold faceMetric
      refine Finset.sum_eq_zero fun q _ => ?_
      simp
    have h4 : faceMetric D (hexGeom .legendre p trapMesh) 0 b 2 4 ⟨0, 5, 0, 0, 0, 4⟩ = - (A * W) / 4 := by
      have e : faceMetric D (hexGeom .legendre p trapMesh) 0 b 2 4 ⟨0, 5, 0, 0, 0, 4⟩ =
          ∑ q ∈ range ((p + 2) * (p + 2)), wt2 p q * ((fun y : ℝ × ℝ =>
            ((facePoint 5 (turn 0 y)).1 * (facePoint 5 (turn 0 y)).2.2 - (facePoint 0 (turn 4 y)).1 * (facePoint 0 (turn 4 y)).2.2) *
              faceNormal (fileCoords trapMesh 0) 5 (y.2, y.1) 2) (facePt2 p q)) := by
        unfold faceMetric
        refine Finset.sum_congr rfl fun q hq => ?_
        have hq' : q < (p + 2) * (p + 2) := Finset.mem_range.1 hq
        have r1 : D.faceBasis 5 (D.ptsOrder 0 q) b = (facePoint 5 (turn 0 (facePt2 p q))).1 * (facePoint 5 (turn 0 (facePt2 p q))).2.2 := by
          show phi3 .legendre p b (facePoint 5 (facePt2 p (D.ptsOrder 0 q))) = _
          rw [facePt2_turn .legendre p 5 t2 _ _ 0 (by omega) q hq', hb, phi3_xz p hp1]
        have r2 : D.faceBasis 0 (D.ptsOrder 4 q) b = (facePoint 0 (turn 4 (facePt2 p q))).1 * (facePoint 0 (turn 4 (facePt2 p q))).2.2 := by
          show phi3 .legendre p b (facePoint 0 (facePt2 p (D.ptsOrder 4 q))) = _
          rw [facePt2_turn .legendre p 5 t2 _ _ 4 (by omega) q hq', hb, phi3_xz p hp1]
        rw [hnorm]
        simp only [if_true, r1, r2]
        show _ * (faceNormal (fileCoords trapMesh 0) 5 _ 2 * wt2 p q) = _
        ring
      rw [e]
      rw [double (fun y : ℝ × ℝ =>
            ((facePoint 5 (turn 0 y)).1 * (facePoint 5 (turn 0 y)).2.2 - (facePoint 0 (turn 4 y)).1 * (facePoint 0 (turn 4 y)).2.2) *
              faceNormal (fileCoords trapMesh 0) 5 (y.2, y.1) 2) (1 / 2) 0 0 (-1 / 4)]
      · ring
      · intro s t
        simp [facePoint, turn, faceNormal, faceTan1, faceTan2, faceCorner, fileCoords, trapMesh, get0]
        ring
    rw [hlist]
    simp only [List.map_cons, List.map_nil, List.sum_cons, List.sum_nil]
    rw [hflat 0 _ rfl (Or.inl rfl), hflat 1 _ rfl (Or.inl rfl), hflat 2 _ rfl (Or.inr rfl), hflat 3 _ rfl (Or.inr rfl), h4, h5]
    ring
  rw [hfm]
  have e1 : b % (p + 1) = 1 := by
    rw [hb, Nat.mul_add_mod, Nat.mod_eq_of_lt (by omega)]
  have e2 : b / (p + 1) % (p + 1) = 0 := by
    rw [hb, Nat.mul_add_div (by omega), Nat.div_eq_of_lt (by omega), add_zero, Nat.mod_self]
  have e3 : b / ((p + 1) * (p + 1)) = 1 := by
    have : 1 < (p + 1) * (p + 1) := by nlinarith
    rw [hb, Nat.add_div_left _ (by omega), Nat.div_eq_of_lt this]
  have hcX : coeffSum (X : ℝ[X]) = 1 := by simp [coeffSum, Finset.sum_range_succ, coeff_X]
  have hc : coeffSum (famPoly .legendre p (b % (p + 1))) * coeffSum (famPoly .legendre p (b / (p + 1) % (p + 1))) *
      coeffSum (famPoly .legendre p (b / ((p + 1) * (p + 1)))) = 1 := by
    rw [e1, e2, e3]
    simp [famPoly, legPoly, hcX, hc1]
  rw [hc, mul_one] at hvolM
  have hp7' : (p : ℝ) ≤ 7 := by exact_mod_cast hp7
  have hv := (abs_le.1 hvolM).1
  have hlow : -(1 / 10 ^ 20 : ℝ) ≤ volMetric D (hexGeom .legendre p trapMesh) 0 b 2 := by
    refine le_trans ?_ hv
    norm_num
    linarith
  have hAW : 13 / 10 ≤ A * W := by nlinarith [hW.1, hA.1]
  have hpp := hu.p_pos
  rw [mul_comm]
  refine mul_lt_mul_of_pos_left ?_ hpp
  norm_num at hlow ⊢
  linarith

end DG
