import Verif.Props.SetupHex
import Verif.Props.SetupExample

/-!
A concrete case of the hypotheses of C63: a mesh of two parallelepipeds of different shape, periodic in
all directions, on two ranks; the faces carry the orientations 0, 4 and 5.
-/
namespace DG
open Finset Polynomial

/-- nodes `(a_i + j/4 + k/5, j, k + b_i)` with `a = (0, 6/5, 2)`, `b = (0, 1/3, 0)` -/
noncomputable def slabMesh : GMesh ℝ where
  numElems := 2
  npe := 8
  eind := [0, 1, 3, 4, 6, 7, 9, 10, 1, 2, 4, 5, 7, 8, 10, 11]
  coord := [[0, 0, 0], [6 / 5, 0, 1 / 3], [2, 0, 0], [1 / 4, 1, 0], [6 / 5 + 1 / 4, 1, 1 / 3], [2 + 1 / 4, 1, 0],
    [1 / 5, 0, 1], [6 / 5 + 1 / 5, 0, 1 + 1 / 3], [2 + 1 / 5, 0, 1], [1 / 4 + 1 / 5, 1, 1],
    [6 / 5 + 1 / 4 + 1 / 5, 1, 1 + 1 / 3], [2 + 1 / 4 + 1 / 5, 1, 1]]
  faces := [⟨0, 2, 0, 1, 4, 5⟩, ⟨1, 2, 0, 0, 4, 5⟩, ⟨0, 3, 0, 0, 1, 5⟩, ⟨1, 3, 0, 1, 1, 5⟩,
    ⟨0, 5, 0, 0, 0, 4⟩, ⟨1, 5, 0, 1, 0, 4⟩]

theorem slabMesh_hex : HexMesh slabMesh where
  npe := rfl
  det := by
    intro e he ξ η ζ h1 h2 h3 h4 h5 h6
    have hE : e = 0 ∨ e = 1 := by
      have : e < 2 := he
      omega
    unfold hexDet hexJac
    rw [Matrix.det_fin_three]
    rcases hE with rfl | rfl <;>
      simp [hexDer, fileCoords, slabMesh, get0] <;> ring_nf <;> norm_num
  faceL := by decide
  faceR := by decide
  sides := by decide
  opposite := by decide
  match_ := by
    intro f hf
    simp only [slabMesh, List.mem_cons, List.not_mem_nil, or_false] at hf
    have key : ∀ (sh : ℕ → ℝ) (f : IFace), (∀ s : ℝ × ℝ, ∀ d, d = 0 ∨ d = 1 ∨ d = 2 →
        hexMap (fileCoords slabMesh f.elemL) (facePoint f.faceL (turn f.orientL s)) d =
          hexMap (fileCoords slabMesh f.elemR) (facePoint f.faceR (turn f.orientR s)) d + sh d) →
        ∃ shift : ℕ → ℝ, ∀ s : ℝ × ℝ, ∀ d < 3,
          hexMap (fileCoords slabMesh f.elemL) (facePoint f.faceL (turn f.orientL s)) d =
          hexMap (fileCoords slabMesh f.elemR) (facePoint f.faceR (turn f.orientR s)) d + shift d :=
      fun sh f h => ⟨sh, fun s d hd => h s d (by omega)⟩
    rcases hf with rfl | rfl | rfl | rfl | rfl | rfl
    · refine key (fun _ => 0) _ fun s d hd => ?_
      rcases hd with rfl | rfl | rfl <;> simp [hexMap, facePoint, turn, fileCoords, slabMesh, get0] <;> ring
    · refine key (fun d => if d = 0 then 2 else 0) _ fun s d hd => ?_
      rcases hd with rfl | rfl | rfl <;> simp [hexMap, facePoint, turn, fileCoords, slabMesh, get0] <;> ring
    · refine key (fun d => if d = 0 then 1 / 4 else if d = 1 then 1 else 0) _ fun s d hd => ?_
      rcases hd with rfl | rfl | rfl <;> simp [hexMap, facePoint, turn, fileCoords, slabMesh, get0] <;> ring
    · refine key (fun d => if d = 0 then 1 / 4 else if d = 1 then 1 else 0) _ fun s d hd => ?_
      rcases hd with rfl | rfl | rfl <;> simp [hexMap, facePoint, turn, fileCoords, slabMesh, get0] <;> ring
    · refine key (fun d => if d = 0 then 1 / 5 else if d = 1 then 0 else 1) _ fun s d hd => ?_
      rcases hd with rfl | rfl | rfl <;> simp [hexMap, facePoint, turn, fileCoords, slabMesh, get0] <;> ring
    · refine key (fun d => if d = 0 then 1 / 5 else if d = 1 then 0 else 1) _ fun s d hd => ?_
      rcases hd with rfl | rfl | rfl <;> simp [hexMap, facePoint, turn, fileCoords, slabMesh, get0] <;> ring

theorem slabMesh_ok : MeshOK slabMesh where
  eindLen := rfl
  nodes := by decide
  faces := by decide
  elemsFit := by decide
  nodesFit := by decide
  facesFit := by decide

/-- one element per rank -/
def slabPart : List ℕ := [0, 1]

theorem slabPart_ok : PartOK slabMesh 2 slabPart := ⟨rfl, by decide⟩

theorem slabMesh_cut : CutFlat slabMesh slabPart := by
  intro f hf _ d hd
  have hD : d = 0 ∨ d = 1 ∨ d = 2 := by omega
  simp only [slabMesh, List.mem_cons, List.not_mem_nil, or_false] at hf
  rcases hf with rfl | rfl | rfl | rfl | rfl | rfl <;> rcases hD with rfl | rfl | rfl <;>
    simp [faceCorner, fileCoords, slabMesh, get0] <;> ring

theorem slabWorld : ∃ rms, World slabMesh 2 slabPart rms := by
  have h : ∀ r, ∃ rm : RankMesh ℝ, r < 2 → partition slabMesh 2 2 slabPart id r = some rm := by
    intro r
    by_cases hr : r < 2
    · obtain ⟨rm, h⟩ := C01_partition_no_ub slabMesh 2 slabPart id slabMesh_ok slabPart_ok enum_id_ok r hr
      exact ⟨rm, fun _ => h⟩
    · obtain ⟨rm, -⟩ := C01_partition_no_ub slabMesh 2 slabPart id slabMesh_ok slabPart_ok enum_id_ok 0 (by omega)
      exact ⟨rm, fun h => absurd h hr⟩
  choose rms h using h
  exact ⟨rms, slabMesh_ok, slabPart_ok, fun r hr => ⟨id, enum_id_ok, h r hr⟩⟩

/-- The hypotheses of C63 hold together: for any order with tables, either family, any fluxes and initial
condition, the two ranks of the example finish their setup and complete any number of steps. -/
theorem slabExample (t : Fam) (p ns : ℕ) (hp : orderFine t p) (vf : (ℕ → ℝ) → ℕ → ℝ)
    (nf : (ℕ → ℝ) → (ℕ → ℝ) → (ℕ → ℝ) → ℕ → ℝ) (ic : (ℕ → ℝ) → ℕ → ℝ) (st : Stepper) (dt : ℝ) (nsteps : ℕ) :
    ∃ rms d g u, World slabMesh 2 slabPart rms ∧ HexRanksReady t p ns vf nf ic 2 rms d g u ∧
      ∃ c k, Proto.Exec (solverProg d g rms 2 dt st (fun _ _ l => l) nsteps) (Proto.init (solverStart d rms st u)) c k ∧
        ∀ r < 2, (c.proc r).round = stagesOf st * nsteps := by
  obtain ⟨rms, w⟩ := slabWorld
  obtain ⟨d, g, u, h1, h2⟩ := C63_setup_succeeds slabMesh 2 slabPart rms w slabMesh_hex slabMesh_cut t p ns hp
    vf nf ic (fun _ _ _ _ => 0) (fun _ _ _ _ => 0) (fun _ _ _ _ => 0) (fun _ _ _ _ => 0)
  have hr : HexRanksReady t p ns vf nf ic 2 rms d g u :=
    ⟨h1, fun r hr => ⟨_, _, (h2 r hr).1⟩, fun r hr => ⟨_, _, (h2 r hr).2⟩⟩
  obtain ⟨-, c, k, hx, hf⟩ := C63_run_completes slabMesh 2 slabPart rms w slabMesh_hex slabMesh_cut t p ns hp
    vf nf ic d g u hr st dt (fun _ _ l => l) (fun _ _ l => List.Perm.refl l) nsteps 0 _ Proto.Exec.refl
  exact ⟨rms, d, g, u, w, hr, c, k, hx, hf⟩

end DG
