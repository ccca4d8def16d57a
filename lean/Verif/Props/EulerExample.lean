import Verif.Props.Positivity
import Verif.Props.SetupExample
import Mathlib.Analysis.Complex.ExponentialBounds

/-!
Concrete cases of the hypotheses of C64 and C65: the isentropic vortex on the doubly periodic mesh of four
distorted quadrilaterals, two ranks.
-/
namespace DG
open Finset

/-- the vortex of strength 1 in a background of density 1, velocity (1, 0), pressure 1; Lax–Friedrichs -/
noncomputable def vortexGas : Physics := ⟨.Euler, .LaxFriedrichs, .IsentropicVortex, [1, 1, 0, 1, 1], 7 / 5, 1⟩

theorem vortexGas_start : StartState vortexGas 2 fun x => vortexState vortexGas.γ 1 1 0 1 1 (x 0) (x 1) := by
  refine .vortex rfl rfl 1 1 0 1 1 [] rfl one_pos one_pos ?_
  have h1 := Real.exp_one_lt_d9
  have h2 := Real.pi_gt_three
  have : (9:ℝ) < Real.pi ^ 2 := by nlinarith
  simp only [vortexGas]
  norm_num
  linarith

/-- the vortex in three dimensions -/
noncomputable def vortexGas3 : Physics := ⟨.Euler, .HLLC, .IsentropicVortex, [], 7 / 5, 1⟩

theorem vortexGas3_start : StartState vortexGas3 3 fun x => vortexState3 vortexGas3.γ (x 0) (x 2) := by
  refine .vortex3 rfl ?_
  have h1 := Real.exp_one_lt_d9
  have h2 := Real.pi_gt_three
  simp only [vortexGas3]
  nlinarith

/-- some time step satisfies the CFL condition -/
theorem exists_cfl {m : GMesh ℝ} (hq : QuadMesh m) (t : Fam) (γ : ℝ) (U : Coeffs ℝ) :
    ∃ dt : ℝ, 0 < dt ∧ QuadCFL t γ m dt U 1 := by
  set W := fun e => waveArea γ (quadEuler t 0 .LaxFriedrichs γ) m (quadGeom t 0 m) U e
  have key : ∀ N ≤ m.numElems, ∃ dt : ℝ, 0 < dt ∧ ∀ e < N, dt * |W e| < 2 * quadArea t m e := by
    intro N
    induction N with
    | zero => exact fun _ => ⟨1, one_pos, fun e he => absurd he (by omega)⟩
    | succ N ih =>
      intro hN
      obtain ⟨dt, h0, h⟩ := ih (by omega)
      have hA := (quad_mass_zero hq t N (by omega)).1
      have hW : 0 < |W N| + 1 := by positivity
      refine ⟨min dt (quadArea t m N / (|W N| + 1)), lt_min h0 (div_pos hA hW), fun e he => ?_⟩
      rcases Nat.lt_succ_iff_lt_or_eq.1 he with h1 | rfl
      · exact lt_of_le_of_lt (mul_le_mul_of_nonneg_right (min_le_left _ _) (abs_nonneg _)) (h e h1)
      · refine lt_of_le_of_lt (mul_le_mul_of_nonneg_right (min_le_right _ _) (abs_nonneg _)) ?_
        rw [div_mul_eq_mul_div, div_lt_iff₀ hW]
        nlinarith [abs_nonneg (W e)]
  obtain ⟨dt, h0, h⟩ := key m.numElems (le_refl _)
  refine ⟨dt, h0, fun i hi e he => ?_⟩
  obtain rfl : i = 0 := by omega
  exact lt_of_le_of_lt (mul_le_mul_of_nonneg_left (le_abs_self _) h0.le) (h e he)

/-- The ranks of the example finish their setup for any physics, and the program completes its steps. -/
theorem perReady (t : Fam) (p : ℕ) (hp : orderFine t p) (vf ic : (ℕ → ℝ) → ℕ → ℝ)
    (nf : (ℕ → ℝ) → (ℕ → ℝ) → (ℕ → ℝ) → ℕ → ℝ) (st : Stepper) (dt : ℝ) (nsteps : ℕ) :
    ∃ rms d g u, World perMesh 2 perPart rms ∧ RanksReady t p 4 vf nf ic 2 rms d g u ∧
      ∃ c k, Proto.Exec (solverProg d g rms 2 dt st (fun _ _ l => l) nsteps) (Proto.init (solverStart d rms st u)) c k ∧
        ∀ r < 2, (c.proc r).round = stagesOf st * nsteps := by
  obtain ⟨rms, w⟩ := perWorld
  obtain ⟨d, g, u, h1, h2⟩ := C61_setup_succeeds perMesh 2 perPart rms w perMesh_quad t p 4 hp
    vf nf ic (fun _ _ _ _ => 0) (fun _ _ _ _ => 0) (fun _ _ _ _ => 0) (fun _ _ _ _ => 0)
  have hr : RanksReady t p 4 vf nf ic 2 rms d g u :=
    ⟨h1, fun r hr => ⟨_, _, (h2 r hr).1⟩, fun r hr => ⟨_, _, (h2 r hr).2⟩⟩
  obtain ⟨-, c, k, hx, hf⟩ := C61_run_completes perMesh 2 perPart rms w perMesh_quad t p 4 hp _ _ _ d g u hr st dt
    (fun _ _ l => l) (fun _ _ l => List.Perm.refl l) nsteps 0 _ Proto.Exec.refl
  exact ⟨rms, d, g, u, w, hr, c, k, hx, hf⟩

/-- C65 on the example: the vortex after one step on two ranks. -/
example : ∃ dt : ℝ, 0 < dt ∧ ∃ rms d g u, World perMesh 2 perPart rms ∧
    RanksReady .legendre 0 4 (solverVolFlux 2 vortexGas fun _ _ => 0)
      (solverNumFlux 2 vortexGas fun _ _ _ => (fun _ => 0, fun _ => 0)) (solverIC 2 vortexGas fun _ _ => 0) 2 rms d g u ∧
    ∃ c k, Proto.Exec (solverProg d g rms 2 dt .FE (fun _ _ l => l) 1)
      (Proto.init (solverStart d rms .FE u)) c k ∧
      ∀ r < 2, ∃ s, (c.proc r).st.2 = some s ∧ ∀ i < (rms r).numElemsPart, Admissible 2 (7 / 5) (s.Uc i 0) := by
  obtain ⟨dt, h0, hcfl⟩ := exists_cfl perMesh_quad .legendre vortexGas.γ
    (quadInit .legendre 0 perMesh fun x => vortexState vortexGas.γ 1 1 0 1 1 (x 0) (x 1))
  obtain ⟨rms, d, g, u, w, hr, c, k, hx, hf⟩ := perReady .legendre 0 ⟨by omega, by simp [famOK]⟩
    (solverVolFlux 2 vortexGas fun _ _ => 0) (solverIC 2 vortexGas fun _ _ => 0)
    (solverNumFlux 2 vortexGas fun _ _ _ => (fun _ => 0, fun _ => 0)) .FE dt 1
  refine ⟨dt, h0, rms, d, g, u, w, hr, c, k, hx, fun r hlt => ?_⟩
  obtain ⟨s, s1, -, s3⟩ := C65_positivity_quad perMesh 2 perPart rms w perMesh_quad perMesh_sides perMesh_noBoundary
    .legendre vortexGas rfl rfl (by norm_num [vortexGas]) _ vortexGas_start (fun h => by simp [vortexGas] at h)
    _ _ _ d g u hr dt h0.le _ (fun _ _ l => List.Perm.refl l) 1 k c hx r hlt 1 (hf r hlt) hcfl
  exact ⟨s, s1, s3⟩

/-- C64 on the example: order 0, one step of the vortex is one step of the textbook scheme. -/
example (dt : ℝ) : ∃ rms d g u, World perMesh 2 perPart rms ∧
    RanksReady .legendre 0 4 (solverVolFlux 2 vortexGas fun _ _ => 0)
      (solverNumFlux 2 vortexGas fun _ _ _ => (fun _ => 0, fun _ => 0)) (solverIC 2 vortexGas fun _ _ => 0) 2 rms d g u ∧
    ∃ c k, Proto.Exec (solverProg d g rms 2 dt .FE (fun _ _ l => l) 1)
      (Proto.init (solverStart d rms .FE u)) c k ∧
      ∀ r < 2, ∃ s, (c.proc r).st.2 = some s ∧ ∀ i e : ℕ, (rms r).l2gElem[i]? = some e → ∀ v < 4,
        s.Uc i 0 v = eulerStep dt (globalRHS (quadEuler .legendre 0 .LaxFriedrichs (7 / 5)) perMesh
          (quadGeom .legendre 0 perMesh)) (quadInit .legendre 0 perMesh
            fun x => vortexState (7 / 5) 1 1 0 1 1 (x 0) (x 1)) e 0 v := by
  have hγ : 1 < vortexGas.γ := by norm_num [vortexGas]
  obtain ⟨rms, d, g, u, w, hr, c, k, hx, hf⟩ := perReady .legendre 0 ⟨by omega, by simp [famOK]⟩
    (solverVolFlux 2 vortexGas fun _ _ => 0) (solverIC 2 vortexGas fun _ _ => 0)
    (solverNumFlux 2 vortexGas fun _ _ _ => (fun _ => 0, fun _ => 0)) .FE dt 1
  refine ⟨rms, d, g, u, w, hr, c, k, hx, fun r hlt => ?_⟩
  have hst := C65_start_admissible vortexGas hγ 2 _ vortexGas_start (fun h => by simp [vortexGas] at h)
  obtain ⟨s, s1, -, s3⟩ := C64_euler_quad perMesh 2 perPart rms w perMesh_quad perMesh_sides
    .legendre 0 ⟨by omega, by simp [famOK]⟩ vortexGas rfl hγ _ vortexGas_start
    _ _ _ d g u hr .FE dt _ (fun _ _ l => List.Perm.refl l) 1 k c hx r hlt 1 (hf r hlt) (by
      intro i hi
      obtain rfl : i = 0 := by omega
      exact states_of_cells perMesh_ok (perMesh_quad.conforming .legendre 0 4 _ _) (quad_order_zero .legendre 4 _ _) rfl _
        fun e he => quad_init_zero perMesh_quad .legendre hγ _ hst e he)
  exact ⟨s, s1, fun i e hi v hv => s3 i e hi 0 (by omega) v hv⟩

end DG
