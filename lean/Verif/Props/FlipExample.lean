import Verif.Props.Flip
import Verif.Props.FreeStreamHexExample
import Verif.Props.MainExample

/-!
Concrete cases of the hypotheses of C74: the vortex on four quadrilaterals with three faces flipped; the flow through two
hexahedra with one face flipped and the HLLC flux.
-/
namespace DG
open Finset

/-- `perMesh` with its first, third and last face flipped -/
noncomputable def flipMesh : GMesh ℝ :=
  { perMesh with
    faces := [⟨1, 3, 1, 0, 1, 0⟩, ⟨2, 1, 0, 3, 3, 1⟩, ⟨2, 0, 1, 0, 2, 0⟩, ⟨1, 2, 0, 3, 0, 1⟩,
      ⟨1, 1, 0, 0, 3, 1⟩, ⟨3, 1, 0, 2, 3, 1⟩, ⟨2, 2, 0, 0, 0, 1⟩, ⟨1, 0, 1, 3, 2, 0⟩] }

theorem flipMesh_flipped : FlippedFaces (fun _ => True) perMesh flipMesh where
  numElems := rfl
  npe := rfl
  eind := rfl
  coord := rfl
  faces := by simp [perMesh, flipMesh, IFace.flip]

/-- its file -/
noncomputable def flipFile : MeshFile ℝ :=
  { perFile with ifaceData := flipMesh.faces.flatMap fun f => [f.elemL, f.faceL, f.orientL, f.elemR, f.faceR, f.orientR] }

theorem flipFile_of : MeshFileOf flipMesh 2 flipFile where
  fileDim := rfl
  numElems := rfl
  numNodes := rfl
  numFaces := rfl
  npe := rfl
  conn := rfl
  rows := perFile_of.rows
  coords := rfl
  faces := rfl
  bnd := ⟨[], rfl, by simp, by simp⟩

theorem flipLaunch : LaunchOK flipMesh 2 perPart (twoRanks perPart) where
  pos := by omega
  parts := ⟨rfl, perPart_ok.lt⟩
  metis := fun _ _ _ => rfl
  enum := twoRanks_enum _
  busy := by decide

/-- The hypotheses of C74 hold; the run on the flipped mesh is accepted, and both executables can be run to the end with
the same solution file. -/
example (un un' : Unset) : ∃ job job' ranks ranks' c c' k k' f f' g,
    readJob perDeck (fun _ _ => some perFile) un 2 2 = some job ∧ readJob perDeck (fun _ _ => some flipFile) un' 2 2 = some job' ∧
    Proto.Exec (jobProg job ranks 2 fun _ _ l => l.reverse) (jobInit job ranks) c k ∧ LoopDone job 2 c ∧
    Proto.Exec (jobProg job' ranks' 2 fun _ _ l => l) (jobInit job' ranks') c' k' ∧ LoopDone job' 2 c' ∧
    jobFile job ranks 2 2 (fun _ => [1, 0]) c = some f ∧ jobFile job' ranks' 2 2 (fun _ => [0, 1]) c' = some f' ∧
    convert 2 f = some g ∧ convert 2 f' = some g := by
  have hno : vortexGas.ftype = .HLLC → ∀ i < 1, StagesHold StepperType.ForwardEuler.scheme (1 / 100)
      (globalRHS (quadEuler .legendre 0 vortexGas.ftype vortexGas.γ) perMesh (quadGeom .legendre 0 perMesh))
      (WavesSpread vortexGas.γ (quadEuler .legendre 0 vortexGas.ftype vortexGas.γ) perMesh (quadGeom .legendre 0 perMesh))
      (quadRun .legendre 0 perMesh vortexGas (fun x => vortexState vortexGas.γ 1 1 0 1 1 (x 0) (x 1))
        StepperType.ForwardEuler.scheme (1 / 100) i) := by
    intro h
    exact absurd h (by simp [vortexGas])
  have h' := C74_accepts_quad perRun (deck' := perDeck) (fs' := fun _ _ => some flipFile) flipMesh_flipped hno perDeck_asks
    ⟨_, _, rfl, rfl, flipFile_of⟩
  obtain ⟨job, ranks, c, f, h1, h2, ⟨k, h3⟩, h4, h5, h6⟩ := perProgram un
  obtain ⟨-, job', a1, a2, a3⟩ := C67_program_quad _ _ _ _ _ _ _ _ _ _ _ h' 2 perPart (twoRanks perPart) flipLaunch un'
    (fun _ _ l => l) (fun _ _ l => .refl l) (fun _ => [0, 1]) (fun _ => by decide)
  have : ∀ r, ∃ q, r < 2 → readyRank job' un' 2 2 (twoRanks perPart r) r = some q := by
    intro r
    by_cases hr : r < 2
    · obtain ⟨q, hq⟩ := Option.ne_none_iff_exists'.1 (a2 r hr)
      exact ⟨q, fun _ => hq⟩
    · exact ⟨(Option.ne_none_iff_exists'.1 (a2 0 (by omega))).choose, fun h => absurd h hr⟩
  choose ranks' hranks' using this
  obtain ⟨-, ⟨c', k', hx', hd'⟩, -⟩ := a3 ranks' hranks' _ 0 .refl
  obtain ⟨f, f', g, r1, r2, r3, r4⟩ := C74_program_quad perRun (deck' := perDeck) (fs' := fun _ _ => some flipFile)
    flipMesh_flipped hno perDeck_asks ⟨_, _, rfl, rfl, flipFile_of⟩
    2 2 perPart perPart (twoRanks perPart) (twoRanks perPart) perLaunch flipLaunch un un' (fun _ _ l => l.reverse) (fun _ _ l => l)
    (fun _ _ l => List.reverse_perm l) (fun _ _ l => .refl l) (fun _ => [1, 0]) (fun _ => [0, 1]) (fun _ => by decide)
    (fun _ => by decide) job job' ranks ranks' h1 a1 h2 hranks' c c' k k' h3 hx' h4 hd'
  exact ⟨job, job', ranks, ranks', c, c', k, k', f, f', g, h1, a1, h3, h4, hx', hd', r1, r2, r3, r4⟩

/-! ### hexahedra -/

/-- In a uniform state the estimated waves spread. -/
theorem waves_equal {dim : ℕ} {γ : ℝ} {U n : ℕ → ℝ} (hγ : 1 < γ) (h : Admissible dim γ U) :
    waveSpeedL dim γ U U n < 0 ∨ 0 < waveSpeedR dim γ U U n := by
  have hc := soundSpeed_pos hγ h
  unfold waveSpeedL waveSpeedR
  have hq := shockFactor_ge γ (pvrsPressure (U 0) (inner' dim (vel U) n) (pressure dim γ U) (soundSpeed dim γ U)
      (U 0) (inner' dim (vel U) n) (pressure dim γ U) (soundSpeed dim γ U)) (pressure dim γ U) hγ h.p_pos
  generalize shockFactor γ _ _ = q at *
  generalize inner' dim (vel U) n = v at *
  generalize soundSpeed dim γ U = a at *
  by_cases hv : v < 0
  · exact .inl (by nlinarith)
  · exact .inr (by nlinarith)

/-- `slabMesh` with its first and last face flipped -/
noncomputable def slabFlip : GMesh ℝ :=
  { slabMesh with
    faces := [⟨1, 4, 5, 0, 2, 0⟩, ⟨1, 2, 0, 0, 4, 5⟩, ⟨0, 3, 0, 0, 1, 5⟩, ⟨1, 3, 0, 1, 1, 5⟩, ⟨0, 5, 0, 0, 0, 4⟩,
      ⟨1, 0, 4, 1, 5, 0⟩] }

theorem slabFlip_flipped : FlippedFaces (FlatLeft slabMesh) slabMesh slabFlip where
  numElems := rfl
  npe := rfl
  eind := rfl
  coord := rfl
  faces := by
    have hfl : ∀ f ∈ slabMesh.faces, FlatLeft slabMesh f := by
      intro f hf d hd
      have hD : d = 0 ∨ d = 1 ∨ d = 2 := by omega
      simp only [slabMesh, List.mem_cons, List.not_mem_nil, or_false] at hf
      rcases hf with rfl | rfl | rfl | rfl | rfl | rfl <;> rcases hD with rfl | rfl | rfl <;>
        simp [faceCorner, fileCoords, slabMesh, get0] <;> ring
    have : List.Forall₂ (fun f f' => f' = f ∨ f' = f.flip ∧ FlatLeft slabMesh f) slabMesh.faces slabFlip.faces := by
      show List.Forall₂ (fun f f' => f' = f ∨ f' = f.flip ∧ FlatLeft slabMesh f)
        [⟨0, 2, 0, 1, 4, 5⟩, ⟨1, 2, 0, 0, 4, 5⟩, ⟨0, 3, 0, 0, 1, 5⟩, ⟨1, 3, 0, 1, 1, 5⟩, ⟨0, 5, 0, 0, 0, 4⟩, ⟨1, 5, 0, 1, 0, 4⟩]
        [⟨1, 4, 5, 0, 2, 0⟩, ⟨1, 2, 0, 0, 4, 5⟩, ⟨0, 3, 0, 0, 1, 5⟩, ⟨1, 3, 0, 1, 1, 5⟩, ⟨0, 5, 0, 0, 0, 4⟩,
          ⟨1, 0, 4, 1, 5, 0⟩]
      exact .cons (.inr ⟨rfl, hfl _ (by simp [slabMesh])⟩) (.cons (.inl rfl) (.cons (.inl rfl) (.cons (.inl rfl)
        (.cons (.inl rfl) (.cons (.inr ⟨rfl, hfl _ (by simp [slabMesh])⟩) .nil)))))
    exact this

/-- The hypotheses of C74 hold with the HLLC flux: one step on the two meshes gives the same coefficients. -/
example : ∀ e < 2, ∀ b < 1, ∀ s < 5,
    hexRun .lagrange 0 slabFlip slabGas (fun _ s => slabGas.icData.getD s 0) .FE (1 / 10) 1 e b s =
      hexRun .lagrange 0 slabMesh slabGas (fun _ s => slabGas.icData.getD s 0) .FE (1 / 10) 1 e b s := by
  have hγ : 1 < slabGas.γ := by norm_num [slabGas]
  have hws : WavesSpread slabGas.γ (hexEuler .lagrange 0 slabGas.ftype slabGas.γ) slabMesh (hexGeom .lagrange 0 slabMesh)
      (hexInit .lagrange 0 slabMesh (fun _ s => slabGas.icData.getD s 0)) := by
    obtain ⟨κ, hκ, -, -, hi⟩ := C66_uniform_start slabMesh slabMesh_hex .lagrange 0 ⟨by omega, by simp [famOK]⟩
      fun _ => slabMesh_affine
    have hadm := slabRun.admissible 0 (by omega)
    intro g f hf q hq
    have hmem := List.mem_of_getElem? hf
    have hA : StatesAdmissible slabGas.γ (hexEuler .lagrange 0 slabGas.ftype slabGas.γ) slabMesh
      (hexInit .lagrange 0 slabMesh (fun _ s => slabGas.icData.getD s 0)) := hadm
    have hm := slabMesh_ok.faces f hmem
    have htr : ∀ e < slabMesh.numElems, ∀ f < 6, ∀ j < 4, traceState (hexEuler .lagrange 0 slabGas.ftype slabGas.γ)
        (hexInit .lagrange 0 slabMesh (fun _ s => slabGas.icData.getD s 0)) e f j =
        fun s => if s < 5 then κ * slabGas.icData.getD s 0 else 0 := by
      intro e he f hf j hj
      funext s
      unfold traceState
      refine ite_congr rfl (fun hs => ?_) fun _ => rfl
      have h1 := (hex_hvol .lagrange 0 5 (eulerDirFlux 3 slabGas.γ) (eulerNumFlux slabGas.ftype 3 slabGas.γ)).2 f hf j hj
      rw [← mul_one (κ * _), ← h1, Finset.mul_sum]
      refine sum_congr rfl fun b hb => ?_
      rw [hi (fun _ s => slabGas.icData.getD s 0) (fun v => slabGas.icData.getD v 0) s (fun _ => rfl) e he b (mem_range.1 hb)]
      unfold uniformCoeffs hexEuler
      ring
    have ho : OrderOK (hexEuler .lagrange 0 slabGas.ftype slabGas.γ) 8 := hexDisc_order .lagrange 0 5 (eulerDirFlux 3 slabGas.γ) (eulerNumFlux slabGas.ftype 3 slabGas.γ)
    have a1 := (ho _ (slabMesh_hex.faceL f hmem).2).1 q hq
    have a2 := (ho _ (slabMesh_hex.faceR f hmem).2).1 q hq
    have hL := hA.left f hmem _ a1
    have e1 := htr _ hm.1 _ (slabMesh_hex.faceL f hmem).1 _ a1
    have e2 := htr _ hm.2 _ (slabMesh_hex.faceR f hmem).1 _ a2
    rw [e1] at hL
    rw [e1, e2]
    exact waves_equal hγ hL
  exact C74_run_hex slabFlip_flipped slabMesh_ok slabMesh_hex .lagrange 0 slabGas hγ _ .FE (1 / 10) 1 slabRun.admissible
    fun _ i hi => by
      obtain rfl : i = 0 := by omega
      exact hws

end DG
