import Verif.Props.EulerExample
import Verif.Props.FreeStreamHexExample

/-!
Concrete cases of the hypotheses of C38 and C39: Euler flow with the HLLC flux on the doubly periodic mesh of four
distorted quadrilaterals, on two ranks; and of the hexahedron forms of C61, C64 and C65 on two parallelepipeds.
-/
namespace DG
open Finset

/-- the volume flux of the example -/
noncomputable def perVol : (ℕ → ℝ) → ℕ → ℝ := solverVolFlux 2 perGas fun _ _ => 0

/-- the numerical flux of the example -/
noncomputable def perNum : (ℕ → ℝ) → (ℕ → ℝ) → (ℕ → ℝ) → ℕ → ℝ :=
  solverNumFlux 2 perGas fun _ _ _ => (fun _ => 0, fun _ => 0)

theorem quad_hface (t : Fam) (p : ℕ) : ∀ f < (quadDisc t p 4 perVol perNum).nface,
    ∀ j < (quadDisc t p 4 perVol perNum).nqf, ∑ b ∈ range (quadDisc t p 4 perVol perNum).nb,
      quadOne t p b * (quadDisc t p 4 perVol perNum).faceBasis f j b = 1 :=
  (quad_hvol t p 4 perVol perNum).2

theorem quad_hgrad (t : Fam) (p : ℕ) : ∀ q < (quadDisc t p 4 perVol perNum).nq,
    ∀ i < (quadDisc t p 4 perVol perNum).dim, ∑ b ∈ range (quadDisc t p 4 perVol perNum).nb,
      quadOne t p b * (quadDisc t p 4 perVol perNum).volGrad q b i = 0 := by
  intro q hq i hi
  exact quadOne_dphi t p (glX (2 * p + 3) (q % (p + 2))) (glX (2 * p + 3) (q / (p + 2))) i

/-- C38 on the example: third order, either basis, every state. -/
example (t : Fam) (U : Coeffs ℝ) (s : ℕ) :
    ∑ e ∈ range 4, ∑ b ∈ range 16, quadOne t 3 b *
      globalResidual (quadDisc t 3 4 perVol perNum) perMesh (quadGeom t 3 perMesh) U e b s = 0 :=
  C38_residual_sums_to_zero perMesh perMesh_ok (quadDisc t 3 4 perVol perNum) 2 (perMesh_quad.conforming t 3 4 _ _)
    (quadDisc_order t 3 4 _ _) (quadOne t 3) (quad_hface t 3) (quad_hgrad t 3) (quadGeom t 3 perMesh) U s

/-- C38 on the example: the mass of the gas does not change in any number of steps of either method, from any state. -/
example (t : Fam) (p : ℕ) (hp : orderFine t p) (st : Stepper) (dt : ℝ) (U : Coeffs ℝ) (k : ℕ) :
    ∃ W B : ℕ → ℕ → ℝ, InvMassOf perMesh ((p + 1) * (p + 1)) ((2 * p + 2) * (2 * p + 2)) W B (quadGeom t p perMesh).iMM ∧
    meshIntegral perMesh ((p + 1) * (p + 1)) ((2 * p + 2) * (2 * p + 2)) W B
        ((stepOf st dt (globalRHS (quadDisc t p 4 perVol perNum) perMesh (quadGeom t p perMesh)))^[k] U) 0 =
      meshIntegral perMesh ((p + 1) * (p + 1)) ((2 * p + 2) * (2 * p + 2)) W B U 0 := by
  have hM : InvMassOf perMesh ((p + 1) * (p + 1)) ((2 * p + 2) * (2 * p + 2))
      (fun e q => glW (4 * p + 3) (q % (2 * p + 2)) * glW (4 * p + 3) (q / (2 * p + 2)) *
        quadDet (fileCoords perMesh e) (glX (4 * p + 3) (q % (2 * p + 2))) (glX (4 * p + 3) (q / (2 * p + 2))))
      (fun q b => phi t p b (glX (4 * p + 3) (q % (2 * p + 2))) (glX (4 * p + 3) (q / (2 * p + 2))))
      (quadGeom t p perMesh).iMM := by
    intro e he a ha j hj
    have := quadInvMass_inv t p hp (fileCoords perMesh e) (perMesh_quad.det e he) a j ha hj
    rw [← this]
    refine Finset.sum_congr rfl fun b _ => ?_
    unfold quadMass
    rw [show 2 * (2 * p) + 3 = 4 * p + 3 by omega]
    rfl
  exact ⟨_, _, hM, C38_steps_conserve perMesh perMesh_ok (quadDisc t p 4 perVol perNum) 2
    (perMesh_quad.conforming t p 4 _ _) (quadDisc_order t p 4 _ _) (quadOne t p) (quad_hface t p) (quad_hgrad t p)
    (quadGeom t p perMesh) _ _ _ (fun q _ => quadOne_phi t p _ _) hM st dt U 0 k⟩

/-- C61 on the example: what the two ranks hold together after 50 steps is what they started with. -/
example : ∃ rms d g u, World perMesh 2 perPart rms ∧ RanksReady .legendre 2 4 perVol perNum
      (solverIC 2 perGas fun _ _ => 0) 2 rms d g u ∧
    ∃ c k, Proto.Exec (solverProg d g rms 2 (1 / 100) .RK4 (fun _ _ l => l) 50)
      (Proto.init (solverStart d rms .RK4 u)) c k ∧
      ∃ S : ℕ → RankState ℝ, (∀ r < 2, (c.proc r).st.2 = some (S r)) ∧ ∀ v < 4,
        ∑ r ∈ range 2, ∑ i ∈ range (rms r).numElemsPart,
          quadIntegral .legendre 2 (elemCoords (rms r) i) ((S r).Uc i) v =
        ∑ r ∈ range 2, ∑ i ∈ range (rms r).numElemsPart,
          quadIntegral .legendre 2 (elemCoords (rms r) i) (u r i) v := by
  obtain ⟨rms, d, g, u, w, hr, c, k, hx, hf⟩ := perExample .legendre 2 ⟨by omega, by simp [famOK]⟩ .RK4 (1 / 100) 50
  have key := C61_run_conserves perMesh 2 perPart rms w perMesh_quad .legendre 2 4 ⟨by omega, by simp [famOK]⟩
    perVol perNum _ d g u hr .RK4 (1 / 100) (fun _ _ l => l) (fun _ _ l => List.Perm.refl l) 50 k c hx hf
  obtain ⟨S, hS, -⟩ := key 0 (by omega)
  refine ⟨rms, d, g, u, w, hr, c, k, hx, S, hS, fun v hv => ?_⟩
  obtain ⟨S', hS', h⟩ := key v hv
  rw [← h]
  refine Finset.sum_congr rfl fun r hr' => ?_
  have : S r = S' r := Option.some.inj ((hS r (mem_range.1 hr')).symm.trans (hS' r (mem_range.1 hr')))
  rw [this]

/-- C39 on the example: with order 0 the residual of the uniform gas is zero in every element, -/
example (t : Fam) (e s : ℕ) (he : e < 4) (hs : s < 4) :
    globalResidual (quadDisc t 0 4 perVol perNum) perMesh (quadGeom t 0 perMesh)
      (uniformCoeffs (quadOne t 0) fun v => perGas.icData.getD v 0) e 0 s = 0 :=
  C39_uniform_residual_zero perMesh (quadDisc t 0 4 perVol perNum) 2 (perMesh_quad.conforming t 0 4 _ _)
    (quadDisc_order t 0 4 _ _) (quadOne t 0) (quad_hvol t 0 4 _ _).1 (quad_hvol t 0 4 _ _).2 (quadGeom t 0 perMesh)
    (normals_nonzero perMesh_ok perMesh_quad perMesh_sides t 0 4 _ _) _
    (consistent_euler t 0 perGas rfl (by norm_num [perGas]) _ _ _ perGas_admissible) e
    (metricIdentity_zero perMesh_quad perMesh_noBoundary t 4 _ _ e he) 0 s (by show 0 < 1; omega) hs

/-- and any number of steps of either method leaves it as it is. -/
example (t : Fam) (st : Stepper) (dt : ℝ) (k : ℕ) :
    AgreeIn (quadDisc t 0 4 perVol perNum) 4
      ((stepOf st dt (globalRHS (quadDisc t 0 4 perVol perNum) perMesh (quadGeom t 0 perMesh)))^[k]
        (uniformCoeffs (quadOne t 0) fun v => perGas.icData.getD v 0))
      (uniformCoeffs (quadOne t 0) fun v => perGas.icData.getD v 0) :=
  C39_uniform_state_is_fixed perMesh perMesh_ok (quadDisc t 0 4 perVol perNum) 2 (perMesh_quad.conforming t 0 4 _ _)
    (quadDisc_order t 0 4 _ _) (quadOne t 0) (quad_hvol t 0 4 _ _).1 (quad_hvol t 0 4 _ _).2 (quadGeom t 0 perMesh)
    (normals_nonzero perMesh_ok perMesh_quad perMesh_sides t 0 4 _ _) _
    (consistent_euler t 0 perGas rfl (by norm_num [perGas]) _ _ _ perGas_admissible)
    (fun e he => metricIdentity_zero perMesh_quad perMesh_noBoundary t 4 _ _ e he) st dt k

/-- and a run of the two ranks that starts from it ends with it. -/
example (t : Fam) (st : Stepper) (dt : ℝ) (nsteps : ℕ) :
    ∃ (rms : ℕ → RankMesh ℝ) (g : ℕ → Geom ℝ) (c : _) (k : ℕ), World perMesh 2 perPart rms ∧
      Proto.Exec (solverProg (quadDisc t 0 4 perVol perNum) g rms 2 dt st (fun _ _ l => l) nsteps)
        (Proto.init (solverStart (quadDisc t 0 4 perVol perNum) rms st fun _ =>
          uniformCoeffs (quadOne t 0) fun v => perGas.icData.getD v 0)) c k ∧
      ∀ r < 2, ∃ s : RankState ℝ, (c.proc r).st.2 = some s ∧
        ∀ i < (rms r).numElemsPart, s.Uc i 0 0 = quadOne t 0 0 * (7 / 5) := by
  have hp : orderFine t 0 := ⟨by omega, by cases t <;> simp [famOK]⟩
  obtain ⟨rms, d, g, u, w, hr, -⟩ := perReady t 0 hp perVol (solverIC 2 perGas fun _ _ => 0) perNum st dt nsteps
  have hg : ∀ r < 2, GeomRestrict (quadDisc t 0 4 perVol perNum) (rms r) (g r) (quadGeom t 0 perMesh) :=
    fun r h => hr.geomQ w perMesh_quad hp r h
  obtain ⟨-, c, k, hx, hf⟩ := C60_run_completes perMesh 2 perPart rms w (quadDisc t 0 4 perVol perNum) 2
    (perMesh_quad.conforming t 0 4 _ _) (quadDisc_order t 0 4 _ _) (quadGeom t 0 perMesh) g hg st dt
    (fun _ _ l => l) (fun _ _ l => List.Perm.refl l) (uniformCoeffs (quadOne t 0) fun v => perGas.icData.getD v 0)
    (fun _ => uniformCoeffs (quadOne t 0) fun v => perGas.icData.getD v 0)
    (fun _ _ _ _ _ _ _ _ _ => rfl) nsteps 0 _ Proto.Exec.refl
  refine ⟨rms, g, c, k, w, hx, fun r hlt => ?_⟩
  obtain ⟨s, s1, s2⟩ := C39_run_preserves_uniform_state perMesh 2 perPart rms w (quadDisc t 0 4 perVol perNum) 2
    (perMesh_quad.conforming t 0 4 _ _) (quadDisc_order t 0 4 _ _) (quadOne t 0) (quad_hvol t 0 4 _ _).1
    (quad_hvol t 0 4 _ _).2 (quadGeom t 0 perMesh) g hg
    (normals_nonzero perMesh_ok perMesh_quad perMesh_sides t 0 4 _ _) (fun v => perGas.icData.getD v 0)
    (consistent_euler t 0 perGas rfl (by norm_num [perGas]) _ _ _ perGas_admissible)
    (fun e he => metricIdentity_zero perMesh_quad perMesh_noBoundary t 4 _ _ e he) st dt
    (fun _ _ l => l) (fun _ _ l => List.Perm.refl l) nsteps k c hx hf r hlt
  refine ⟨s, s1, fun i hi => ?_⟩
  rw [s2 i hi 0 (by show 0 < 1; omega) 0 (by show 0 < 4; omega)]
  simp [uniformCoeffs, perGas]

/-! ### hexahedra -/

/-- C63 on the example: what the two ranks hold together after 50 steps is what they started with. -/
example : ∃ rms d g u, World slabMesh 2 slabPart rms ∧ ∃ c k,
    Proto.Exec (solverProg d g rms 2 (1 / 100) .RK4 (fun _ _ l => l) 50) (Proto.init (solverStart d rms .RK4 u)) c k ∧
      ∃ S : ℕ → RankState ℝ, (∀ r < 2, (c.proc r).st.2 = some (S r)) ∧ ∀ v < 5,
        ∑ r ∈ range 2, ∑ i ∈ range (rms r).numElemsPart,
          hexIntegral .legendre 2 (elemCoords (rms r) i) ((S r).Uc i) v =
        ∑ r ∈ range 2, ∑ i ∈ range (rms r).numElemsPart,
          hexIntegral .legendre 2 (elemCoords (rms r) i) (u r i) v := by
  obtain ⟨rms, d, g, u, w, hr, c, k, hx, hf⟩ := slabExample .legendre 2 5 ⟨by omega, by simp [famOK]⟩
    (solverVolFlux 3 vortexGas3 fun _ _ => 0) (solverNumFlux 3 vortexGas3 fun _ _ _ => (fun _ => 0, fun _ => 0))
    (solverIC 3 vortexGas3 fun _ _ => 0) .RK4 (1 / 100) 50
  have key := C63_run_conserves slabMesh 2 slabPart rms w slabMesh_hex slabMesh_cut .legendre 2 5
    ⟨by omega, by simp [famOK]⟩ _ _ _ d g u hr .RK4 (1 / 100) (fun _ _ l => l) (fun _ _ l => List.Perm.refl l) 50 k c hx hf
  obtain ⟨S, hS, -⟩ := key 0 (by omega)
  refine ⟨rms, d, g, u, w, c, k, hx, S, hS, fun v hv => ?_⟩
  obtain ⟨S', hS', h⟩ := key v hv
  rw [← h]
  refine Finset.sum_congr rfl fun r hr' => ?_
  have : S r = S' r := Option.some.inj ((hS r (mem_range.1 hr')).symm.trans (hS' r (mem_range.1 hr')))
  rw [this]

/-- the three-dimensional vortex with the Lax–Friedrichs flux -/
noncomputable def vortexGasL : Physics := ⟨.Euler, .LaxFriedrichs, .IsentropicVortex, [], 7 / 5, 1⟩

theorem vortexGasL_start : StartState vortexGasL 3 fun x => vortexState3 vortexGasL.γ (x 0) (x 2) := by
  refine .vortex3 rfl ?_
  have h1 := Real.exp_one_lt_d9
  have h2 := Real.pi_gt_three
  simp only [vortexGasL]
  nlinarith

/-- some time step satisfies the CFL condition -/
theorem exists_cfl_hex {m : GMesh ℝ} (hq : HexMesh m) (t : Fam) (γ : ℝ) (U : Coeffs ℝ) :
    ∃ dt : ℝ, 0 < dt ∧ HexCFL t γ m dt U 1 := by
  set W := fun e => waveArea γ (hexEuler t 0 .LaxFriedrichs γ) m (hexGeom t 0 m) U e
  have key : ∀ N ≤ m.numElems, ∃ dt : ℝ, 0 < dt ∧ ∀ e < N, dt * |W e| < 2 * hexVolume t m e := by
    intro N
    induction N with
    | zero => exact fun _ => ⟨1, one_pos, fun e he => absurd he (by omega)⟩
    | succ N ih =>
      intro hN
      obtain ⟨dt, h0, h⟩ := ih (by omega)
      have hA := (hex_mass_zero hq t N (by omega)).1
      have hW : 0 < |W N| + 1 := by positivity
      refine ⟨min dt (hexVolume t m N / (|W N| + 1)), lt_min h0 (div_pos hA hW), fun e he => ?_⟩
      rcases Nat.lt_succ_iff_lt_or_eq.1 he with h1 | rfl
      · exact lt_of_le_of_lt (mul_le_mul_of_nonneg_right (min_le_left _ _) (abs_nonneg _)) (h e h1)
      · refine lt_of_le_of_lt (mul_le_mul_of_nonneg_right (min_le_right _ _) (abs_nonneg _)) ?_
        rw [div_mul_eq_mul_div, div_lt_iff₀ hW]
        nlinarith [abs_nonneg (W e)]
  obtain ⟨dt, h0, h⟩ := key m.numElems (le_refl _)
  refine ⟨dt, h0, fun i hi e he => ?_⟩
  obtain rfl : i = 0 := by omega
  exact lt_of_le_of_lt (mul_le_mul_of_nonneg_left (le_abs_self _) h0.le) (h e he)

/-- C65 (and with it C64) on the example: the vortex after one step on two ranks. -/
example (t : Fam) : ∃ dt : ℝ, 0 < dt ∧ ∃ rms d g u, World slabMesh 2 slabPart rms ∧ ∃ c k,
    Proto.Exec (solverProg d g rms 2 dt .FE (fun _ _ l => l) 1) (Proto.init (solverStart d rms .FE u)) c k ∧
      ∀ r < 2, ∃ s, (c.proc r).st.2 = some s ∧ ∀ i < (rms r).numElemsPart, Admissible 3 (7 / 5) (s.Uc i 0) := by
  obtain ⟨dt, h0, hcfl⟩ := exists_cfl_hex slabMesh_hex t vortexGasL.γ
    (hexInit t 0 slabMesh fun x => vortexState3 vortexGasL.γ (x 0) (x 2))
  obtain ⟨rms, d, g, u, w, hr, c, k, hx, hf⟩ := slabExample t 0 5 ⟨by omega, by cases t <;> simp [famOK]⟩
    (solverVolFlux 3 vortexGasL fun _ _ => 0) (solverNumFlux 3 vortexGasL fun _ _ _ => (fun _ => 0, fun _ => 0))
    (solverIC 3 vortexGasL fun _ _ => 0) .FE dt 1
  refine ⟨dt, h0, rms, d, g, u, w, c, k, hx, fun r hlt => ?_⟩
  obtain ⟨s, s1, -, s3⟩ := C65_positivity_hex slabMesh 2 slabPart rms w slabMesh_hex slabMesh_cut slabMesh_faces
    slabMesh_noBoundary t vortexGasL rfl rfl (by norm_num [vortexGasL]) _ vortexGasL_start (fun h => by simp [vortexGasL] at h)
    _ _ _ d g u hr dt h0.le _ (fun _ _ l => List.Perm.refl l) 1 k c hx r hlt 1 (hf r hlt) hcfl
  exact ⟨s, s1, s3⟩

end DG
