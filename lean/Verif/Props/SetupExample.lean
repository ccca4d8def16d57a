import Verif.Props.FreeStreamQuad

/-!
A concrete case of the hypotheses of C61 and C62: a doubly periodic mesh of four distorted
quadrilaterals on two ranks.
-/
namespace DG
open Finset Polynomial

/-- 3 × 3 nodes, the middle one moved -/
noncomputable def perMesh : GMesh ℝ where
  numElems := 4
  npe := 4
  eind := [0, 1, 3, 4, 1, 2, 4, 5, 3, 4, 6, 7, 4, 5, 7, 8]
  coord := [[0, 0], [1, 0], [2, 0], [0, 1], [6 / 5, 9 / 10], [2, 1], [0, 2], [1, 2], [2, 2]]
  faces := [⟨0, 1, 0, 1, 3, 1⟩, ⟨2, 1, 0, 3, 3, 1⟩, ⟨0, 2, 0, 2, 0, 1⟩, ⟨1, 2, 0, 3, 0, 1⟩,
    ⟨1, 1, 0, 0, 3, 1⟩, ⟨3, 1, 0, 2, 3, 1⟩, ⟨2, 2, 0, 0, 0, 1⟩, ⟨3, 2, 0, 1, 0, 1⟩]

theorem perMesh_quad : QuadMesh perMesh where
  npe := rfl
  det := by
    intro e he ξ η h1 h2 h3 h4
    have hE : e = 0 ∨ e = 1 ∨ e = 2 ∨ e = 3 := by
      have : e < 4 := he
      omega
    rcases hE with rfl | rfl | rfl | rfl <;>
      simp [quadDet, quadXi, quadEta, fileCoords, perMesh, get0] <;> nlinarith
  faceL := by decide
  faceR := by decide
  sides := by decide
  match_ := by
    intro f hf
    simp only [perMesh, List.mem_cons, List.not_mem_nil, or_false] at hf
    have key : ∀ (sh : ℕ → ℝ) (f : IFace), (∀ s : ℝ, ∀ d, d = 0 ∨ d = 1 →
        quadMap (fileCoords perMesh f.elemL) (sidePoint f.faceL s).1 (sidePoint f.faceL s).2 d =
          quadMap (fileCoords perMesh f.elemR) (sidePoint f.faceR (-s)).1 (sidePoint f.faceR (-s)).2 d + sh d) →
        ∃ shift : ℕ → ℝ, ∀ s : ℝ, ∀ d < 2,
          quadMap (fileCoords perMesh f.elemL) (sidePoint f.faceL s).1 (sidePoint f.faceL s).2 d =
          quadMap (fileCoords perMesh f.elemR) (sidePoint f.faceR (-s)).1 (sidePoint f.faceR (-s)).2 d + shift d :=
      fun sh f h => ⟨sh, fun s d hd => h s d (by omega)⟩
    rcases hf with rfl | rfl | rfl | rfl | rfl | rfl | rfl | rfl
    · refine key (fun _ => 0) _ fun s d hd => ?_
      rcases hd with rfl | rfl <;> simp [quadMap, sidePoint, fileCoords, perMesh, get0] <;> ring
    · refine key (fun _ => 0) _ fun s d hd => ?_
      rcases hd with rfl | rfl <;> simp [quadMap, sidePoint, fileCoords, perMesh, get0] <;> ring
    · refine key (fun _ => 0) _ fun s d hd => ?_
      rcases hd with rfl | rfl <;> simp [quadMap, sidePoint, fileCoords, perMesh, get0] <;> ring
    · refine key (fun _ => 0) _ fun s d hd => ?_
      rcases hd with rfl | rfl <;> simp [quadMap, sidePoint, fileCoords, perMesh, get0] <;> ring
    · refine key (fun d => if d = 0 then 2 else 0) _ fun s d hd => ?_
      rcases hd with rfl | rfl <;> simp [quadMap, sidePoint, fileCoords, perMesh, get0] <;> ring
    · refine key (fun d => if d = 0 then 2 else 0) _ fun s d hd => ?_
      rcases hd with rfl | rfl <;> simp [quadMap, sidePoint, fileCoords, perMesh, get0] <;> ring
    · refine key (fun d => if d = 1 then 2 else 0) _ fun s d hd => ?_
      rcases hd with rfl | rfl <;> simp [quadMap, sidePoint, fileCoords, perMesh, get0] <;> ring
    · refine key (fun d => if d = 1 then 2 else 0) _ fun s d hd => ?_
      rcases hd with rfl | rfl <;> simp [quadMap, sidePoint, fileCoords, perMesh, get0] <;> ring

theorem perMesh_ok : MeshOK perMesh where
  eindLen := rfl
  nodes := by decide
  faces := by decide
  elemsFit := by decide
  nodesFit := by decide
  facesFit := by decide

theorem perMesh_sides : SidesNonzero perMesh := by
  intro e he k hk
  have hE : e = 0 ∨ e = 1 ∨ e = 2 ∨ e = 3 := by
    have : e < 4 := he
    omega
  have hK : k = 0 ∨ k = 1 ∨ k = 2 ∨ k = 3 := by omega
  refine ⟨k % 2, by omega, ?_⟩
  rcases hE with rfl | rfl | rfl | rfl <;> rcases hK with rfl | rfl | rfl | rfl <;>
    simp [sideTo, sideFrom, fileCoords, perMesh, get0] <;> norm_num

theorem perMesh_noBoundary : NoBoundary perMesh := by
  intro e he k hk h
  rw [boundary_iff] at h
  refine h ?_
  have : ∀ e < 4, ∀ k < 4, (e, k) ∈ sideList perMesh := by decide
  exact this e he k hk

/-- elements 0 and 3 on rank 0, the others on rank 1 -/
def perPart : List ℕ := [0, 1, 1, 0]

theorem perPart_ok : PartOK perMesh 2 perPart := ⟨rfl, by decide⟩

theorem perWorld : ∃ rms, World perMesh 2 perPart rms := by
  have h : ∀ r, ∃ rm : RankMesh ℝ, r < 2 → partition perMesh 2 2 perPart id r = some rm := by
    intro r
    by_cases hr : r < 2
    · obtain ⟨rm, h⟩ := C01_partition_no_ub perMesh 2 perPart id perMesh_ok perPart_ok enum_id_ok r hr
      exact ⟨rm, fun _ => h⟩
    · obtain ⟨rm, -⟩ := C01_partition_no_ub perMesh 2 perPart id perMesh_ok perPart_ok enum_id_ok 0 (by omega)
      exact ⟨rm, fun h => absurd h hr⟩
  choose rms h using h
  exact ⟨rms, perMesh_ok, perPart_ok, fun r hr => ⟨id, enum_id_ok, h r hr⟩⟩

/-- Euler gas at density 1.4, velocity (3, 0), pressure 1, HLLC flux -/
noncomputable def perGas : Physics := ⟨.Euler, .HLLC, .Uniform, [7 / 5, 21 / 5, 0, 44 / 5], 7 / 5, 1⟩

theorem perGas_admissible : Admissible 2 perGas.γ (fun v => perGas.icData.getD v 0) := by
  constructor
  · simp [perGas]
  · simp [perGas, pressure, internalEnergy, inner', vel, Finset.sum_range_succ]
    norm_num

/-- The hypotheses of C61 and C62 hold together: for any order with tables and either family, the two
ranks of the example finish their setup, and the program completes any number of steps. -/
theorem perExample (t : Fam) (p : ℕ) (hp : orderFine t p) (st : Stepper) (dt : ℝ) (nsteps : ℕ) :
    ∃ rms d g u, World perMesh 2 perPart rms ∧
      RanksReady t p 4 (solverVolFlux 2 perGas fun _ _ => 0) (solverNumFlux 2 perGas fun _ _ _ => (fun _ => 0, fun _ => 0))
        (solverIC 2 perGas fun _ _ => 0) 2 rms d g u ∧
      ∃ c k, Proto.Exec (solverProg d g rms 2 dt st (fun _ _ l => l) nsteps) (Proto.init (solverStart d rms st u)) c k ∧
        ∀ r < 2, (c.proc r).round = stagesOf st * nsteps := by
  obtain ⟨rms, w⟩ := perWorld
  obtain ⟨d, g, u, h1, h2⟩ := C61_setup_succeeds perMesh 2 perPart rms w perMesh_quad t p 4 hp
    (solverVolFlux 2 perGas fun _ _ => 0) (solverNumFlux 2 perGas fun _ _ _ => (fun _ => 0, fun _ => 0))
    (solverIC 2 perGas fun _ _ => 0) (fun _ _ _ _ => 0) (fun _ _ _ _ => 0) (fun _ _ _ _ => 0) (fun _ _ _ _ => 0)
  have hr : RanksReady t p 4 (solverVolFlux 2 perGas fun _ _ => 0)
      (solverNumFlux 2 perGas fun _ _ _ => (fun _ => 0, fun _ => 0)) (solverIC 2 perGas fun _ _ => 0) 2 rms d g u :=
    ⟨h1, fun r hr => ⟨_, _, (h2 r hr).1⟩, fun r hr => ⟨_, _, (h2 r hr).2⟩⟩
  obtain ⟨-, c, k, hx, hf⟩ := C61_run_completes perMesh 2 perPart rms w perMesh_quad t p 4 hp _ _ _ d g u hr st dt
    (fun _ _ l => l) (fun _ _ l => List.Perm.refl l) nsteps 0 _ Proto.Exec.refl
  exact ⟨rms, d, g, u, w, hr, c, k, hx, hf⟩

/-- C62 on the example: order 0, RK4, 100 steps, two ranks: the flow stays as it was. -/
example : ∃ rms d g u, World perMesh 2 perPart rms ∧
    RanksReady .lagrange 0 4 (solverVolFlux 2 perGas fun _ _ => 0)
      (solverNumFlux 2 perGas fun _ _ _ => (fun _ => 0, fun _ => 0)) (solverIC 2 perGas fun _ _ => 0) 2 rms d g u ∧
    ∃ c k, Proto.Exec (solverProg d g rms 2 (1 / 10) .RK4 (fun _ _ l => l) 100)
      (Proto.init (solverStart d rms .RK4 u)) c k ∧
      ∀ r < 2, ∃ s, (c.proc r).st.2 = some s ∧ ∀ i < (rms r).numElemsPart, ∀ v < 4, s.Uc i 0 v = u r i 0 v := by
  obtain ⟨rms, d, g, u, w, hr, c, k, hx, hf⟩ := perExample .lagrange 0 ⟨by omega, trivial⟩ .RK4 (1 / 10) 100
  refine ⟨rms, d, g, u, w, hr, c, k, hx, ?_⟩
  intro r hlt
  obtain ⟨s, s1, s2⟩ := C62_order_zero_keeps_uniform_flow perMesh 2 perPart rms w perMesh_quad perMesh_sides
    perMesh_noBoundary .lagrange perGas rfl (by norm_num [perGas]) rfl (by simp [perGas]) perGas_admissible _ _ _ d g u hr .RK4
    (1 / 10) (fun _ _ l => l) (fun _ _ l => List.Perm.refl l) 100 k c hx hf r hlt
  exact ⟨s, s1, fun i hi v hv => (s2 i hi v hv).1⟩

end DG
