import Verif.Props.Frame
import Verif.Props.MainExample

/-!
Concrete cases of the hypotheses of C73: the vortex on four quadrilaterals turned by a right angle, with other units and
everything numbered backwards; the flow through two hexahedra turned, moved and shrunk.
-/
namespace DG
open Finset

/-- a quarter turn; densities times 3, velocities times 2 -/
noncomputable def quarterTurn : Frame 2 where
  dens := 3
  speed := 2
  len := 1
  Q := fun i j => if i = 0 then (if j = 1 then -1 else 0) else (if j = 0 then 1 else 0)
  shift := fun _ => 0
  dens_pos := by norm_num
  speed_pos := by norm_num
  len_pos := by norm_num
  orth := by
    intro i hi j hj
    have hI : i = 0 ∨ i = 1 := by omega
    have hJ : j = 0 ∨ j = 1 := by omega
    rcases hI with rfl | rfl <;> rcases hJ with rfl | rfl <;> simp [sum_range_succ]
  rot := by rw [Matrix.det_fin_two]; simp

/-- `perMesh` turned; elements, nodes and faces numbered backwards -/
noncomputable def turnedMesh : GMesh ℝ where
  numElems := 4
  npe := 4
  eind := [4, 3, 1, 0, 5, 4, 2, 1, 7, 6, 4, 3, 8, 7, 5, 4]
  coord := [[-2, 2], [-2, 1], [-2, 0], [-1, 2], [-9 / 10, 6 / 5], [-1, 0], [0, 2], [0, 1], [0, 0]]
  faces := [⟨0, 2, 0, 2, 0, 1⟩, ⟨1, 2, 0, 3, 0, 1⟩, ⟨0, 1, 0, 1, 3, 1⟩, ⟨2, 1, 0, 3, 3, 1⟩,
    ⟨2, 2, 0, 0, 0, 1⟩, ⟨3, 2, 0, 1, 0, 1⟩, ⟨1, 1, 0, 0, 3, 1⟩, ⟨3, 1, 0, 2, 3, 1⟩]

theorem turnedMesh_same : SameMesh quarterTurn (fun e => 3 - e) perMesh turnedMesh where
  numElems := rfl
  npe := rfl
  lt := by intro e he; have : e < 4 := he; show 3 - e < 4; omega
  inj := by intro e he e' he' h; have : e < 4 := he; have : e' < 4 := he'; omega
  corners := by
    intro e he i hi d hd
    have hE : e = 0 ∨ e = 1 ∨ e = 2 ∨ e = 3 := by have : e < 4 := he; omega
    have hI : i = 0 ∨ i = 1 ∨ i = 2 ∨ i = 3 := by have : i < 4 := hi; omega
    have hD : d = 0 ∨ d = 1 := by omega
    rw [Frame.point, Frame.turn2 _ _ hd]
    rcases hE with rfl | rfl | rfl | rfl <;> rcases hI with rfl | rfl | rfl | rfl <;> rcases hD with rfl | rfl <;>
      simp [fileCoords, turnedMesh, perMesh, get0, quarterTurn] <;> norm_num
  faces := by
    have : (perMesh.faces.map (IFace.relabel fun e => 3 - e)).reverse = turnedMesh.faces := by
      simp [perMesh, turnedMesh, IFace.relabel]
    rw [← this]
    exact List.reverse_perm _

/-- its file -/
noncomputable def turnedFile : MeshFile ℝ where
  dim := 2
  numElems := 4
  numNodes := 9
  nIF := 8
  npe := 4
  elem2Nodes := turnedMesh.eind
  nodeCoords := turnedMesh.coord.flatten
  ifaceData := turnedMesh.faces.flatMap fun f => [f.elemL, f.faceL, f.orientL, f.elemR, f.faceR, f.orientR]
  bgroups := []

theorem turnedFile_of : MeshFileOf turnedMesh 2 turnedFile where
  fileDim := rfl
  numElems := rfl
  numNodes := rfl
  numFaces := rfl
  npe := rfl
  conn := rfl
  rows := by simp [turnedMesh]
  coords := rfl
  faces := rfl
  bnd := ⟨[], rfl, by simp, by simp⟩

noncomputable def turnedGas : Physics := ⟨.Euler, .LaxFriedrichs, .IsentropicVortex, [3, 0, 2, 12, 2], 7 / 5, 1⟩

/-- the input file in the new frame: half the time step -/
noncomputable def turnedDeck : Deck where
  dim := some 2
  order := some 0
  basis := some "LegendreQuad"
  quad := none
  meshFile := some "turned.h5"
  parts := ⟨false, none⟩
  boundaries := []
  solver := ⟨some "IsentropicVortex", some "Euler", none, none, some 1, none, some (1 / 200), some (1 / 160), none⟩
  icData := some [3, 0, 2, 12, 2]

theorem turnedDeck_asks : DeckAsks turnedDeck 2 0 (quadType .legendre) turnedGas .ForwardEuler
    (1 / 100 * quarterTurn.len / quarterTurn.speed) (1 / 80 * quarterTurn.len / quarterTurn.speed) where
  runDim := rfl
  order := rfl
  basisName := rfl
  quad := by simp [turnedDeck]
  parts := rfl
  ic := rfl
  icData := rfl
  icSize := by simp [turnedGas]
  euler := ⟨rfl, rfl⟩
  flux := .inr ⟨rfl, rfl⟩
  gamma := .inr ⟨rfl, by norm_num [turnedGas]⟩
  gas := .inl rfl
  stepper := .inr ⟨rfl, rfl⟩
  timestep := by norm_num [turnedDeck, quarterTurn]
  tend := by norm_num [turnedDeck, quarterTurn]

theorem turnedMesh_ok : MeshOK turnedMesh where
  eindLen := rfl
  nodes := by decide
  faces := by decide
  elemsFit := by decide
  nodesFit := by decide
  facesFit := by decide

theorem turnedStart : ∃ start', StartState turnedGas 2 start' ∧
    SameStart quarterTurn (fun x => vortexState vortexGas.γ 1 1 0 1 1 (x 0) (x 1)) start' :=
  C73_vortex_start quarterTurn rfl (fun _ _ => rfl) vortexGas turnedGas (by norm_num [vortexGas]) rfl rfl rfl 1 1 0 1 1
    one_pos one_pos (by
      have h1 := Real.exp_one_lt_d9
      have h2 := Real.pi_gt_three
      have : (9:ℝ) < Real.pi ^ 2 := by nlinarith
      simp only [vortexGas]
      norm_num
      linarith) [] (by simp [turnedGas, quarterTurn]; norm_num)

theorem turnedLaunch : LaunchOK turnedMesh 2 perPart (twoRanks perPart) where
  pos := by omega
  parts := ⟨rfl, perPart_ok.lt⟩
  metis := fun _ _ _ => rfl
  enum := twoRanks_enum _
  busy := by decide

/-- The hypotheses of C73 hold; the turned run is accepted, and both executables can be run to the end with related
solution files. -/
example (un un' : Unset) : ∃ f f' g g',
    convert 2 f = some g ∧ convert 2 f' = some g' ∧ SameSolution quarterTurn (fun e => 3 - e) 4 1 g g' := by
  obtain ⟨start', s1, s2⟩ := turnedStart
  have h' := C73_accepts_quad perRun (deck' := turnedDeck) (ph' := turnedGas) (fs' := fun _ _ => some turnedFile)
    turnedMesh_same s2 rfl rfl s1 turnedDeck_asks ⟨_, _, rfl, rfl, turnedFile_of⟩ turnedMesh_ok (by unfold AllNodesUsed; decide) (by decide)
  obtain ⟨job, ranks, c, f, h1, h2, ⟨k, h3⟩, h4, h5, h6⟩ := perProgram un
  obtain ⟨-, job', a1, a2, a3⟩ := C67_program_quad _ _ _ _ _ _ _ _ _ _ _ h' 2 perPart (twoRanks perPart) turnedLaunch un'
    (fun _ _ l => l) (fun _ _ l => .refl l) (fun _ => [0, 1]) (fun _ => by decide)
  have : ∀ r, ∃ q, r < 2 → readyRank job' un' 2 2 (twoRanks perPart r) r = some q := by
    intro r
    by_cases hr : r < 2
    · obtain ⟨q, hq⟩ := Option.ne_none_iff_exists'.1 (a2 r hr)
      exact ⟨q, fun _ => hq⟩
    · exact ⟨(Option.ne_none_iff_exists'.1 (a2 0 (by omega))).choose, fun h => absurd h hr⟩
  choose ranks' hranks' using this
  obtain ⟨-, ⟨c', k', hx', hd'⟩, -⟩ := a3 ranks' hranks' _ 0 .refl
  obtain ⟨f, f', g, g', -, -, r3, r4, r5⟩ := C73_program_quad perRun (deck' := turnedDeck) (ph' := turnedGas) (fs' := fun _ _ => some turnedFile)
    turnedMesh_same s2 rfl rfl s1 turnedDeck_asks ⟨_, _, rfl, rfl, turnedFile_of⟩ turnedMesh_ok (by unfold AllNodesUsed; decide) (by decide)
    2 2 perPart perPart (twoRanks perPart) (twoRanks perPart) perLaunch turnedLaunch un un' (fun _ _ l => l.reverse) (fun _ _ l => l)
    (fun _ _ l => List.reverse_perm l) (fun _ _ l => .refl l) (fun _ => [1, 0]) (fun _ => [0, 1]) (fun _ => by decide)
    (fun _ => by decide) job job' ranks ranks' h1 a1 h2 hranks' c c' k k' h3 hx' h4 hd'
  exact ⟨f, f', g, g', r3, r4, r5⟩

/-! ### hexahedra -/

/-- a turn about the third axis, moved; lengths halved -/
noncomputable def tilt : Frame 3 where
  dens := 3
  speed := 2
  len := 1 / 2
  Q := fun i j => if i = 0 then [3 / 5, -4 / 5, 0].getD j 0 else if i = 1 then [4 / 5, 3 / 5, 0].getD j 0
    else [0, 0, 1].getD j 0
  shift := fun d => [1, 2, 3].getD d 0
  dens_pos := by norm_num
  speed_pos := by norm_num
  len_pos := by norm_num
  orth := by
    intro i hi j hj
    have hI : i = 0 ∨ i = 1 ∨ i = 2 := by omega
    have hJ : j = 0 ∨ j = 1 ∨ j = 2 := by omega
    rcases hI with rfl | rfl | rfl <;> rcases hJ with rfl | rfl | rfl <;> simp [sum_range_succ] <;> norm_num
  rot := by rw [Matrix.det_fin_three]; simp; norm_num

/-- a node of `slabMesh` in the new frame -/
noncomputable def tiltPt (x y z : ℝ) : List ℝ :=
  [(3 / 5 * x - 4 / 5 * y) / 2 + 1, (4 / 5 * x + 3 / 5 * y) / 2 + 2, z / 2 + 3]

/-- `slabMesh` in the new frame, the two elements exchanged -/
noncomputable def tiltMesh : GMesh ℝ where
  numElems := 2
  npe := 8
  eind := [1, 2, 4, 5, 7, 8, 10, 11, 0, 1, 3, 4, 6, 7, 9, 10]
  coord := [tiltPt 0 0 0, tiltPt (6 / 5) 0 (1 / 3), tiltPt 2 0 0, tiltPt (1 / 4) 1 0, tiltPt (6 / 5 + 1 / 4) 1 (1 / 3),
    tiltPt (2 + 1 / 4) 1 0, tiltPt (1 / 5) 0 1, tiltPt (6 / 5 + 1 / 5) 0 (1 + 1 / 3), tiltPt (2 + 1 / 5) 0 1,
    tiltPt (1 / 4 + 1 / 5) 1 1, tiltPt (6 / 5 + 1 / 4 + 1 / 5) 1 (1 + 1 / 3), tiltPt (2 + 1 / 4 + 1 / 5) 1 1]
  faces := [⟨1, 2, 0, 0, 4, 5⟩, ⟨0, 2, 0, 1, 4, 5⟩, ⟨1, 3, 0, 1, 1, 5⟩, ⟨0, 3, 0, 0, 1, 5⟩,
    ⟨1, 5, 0, 1, 0, 4⟩, ⟨0, 5, 0, 0, 0, 4⟩]

set_option maxHeartbeats 1000000 in
theorem tiltMesh_same : SameMesh tilt (fun e => 1 - e) slabMesh tiltMesh where
  numElems := rfl
  npe := rfl
  lt := by intro e he; have : e < 2 := he; show 1 - e < 2; omega
  inj := by intro e he e' he' h; have : e < 2 := he; have : e' < 2 := he'; omega
  corners := by
    intro e he i hi d hd
    have hE : e = 0 ∨ e = 1 := by have : e < 2 := he; omega
    have hI : i = 0 ∨ i = 1 ∨ i = 2 ∨ i = 3 ∨ i = 4 ∨ i = 5 ∨ i = 6 ∨ i = 7 := by have : i < 8 := hi; omega
    have hD : d = 0 ∨ d = 1 ∨ d = 2 := by omega
    rw [Frame.point, Frame.turn3 _ _ hd]
    rcases hE with rfl | rfl <;> rcases hI with rfl | rfl | rfl | rfl | rfl | rfl | rfl | rfl <;>
      rcases hD with rfl | rfl | rfl <;>
      simp [fileCoords, tiltMesh, slabMesh, get0, tilt, tiltPt] <;> norm_num
  faces := by
    have : slabMesh.faces.map (IFace.relabel fun e => 1 - e) = tiltMesh.faces := by
      simp [slabMesh, tiltMesh, IFace.relabel]
    rw [this]

/-- The flow `slabGas` in the new frame. -/
noncomputable def tiltGas : Physics := ⟨.Euler, .HLLC, .Uniform, [3, -6 / 5, 42 / 5, 0, 60], 14 / 10, 28705 / 100⟩

example : StartState tiltGas 3 (fun _ s => tiltGas.icData.getD s 0) ∧
    SameStart tilt (fun _ s => slabGas.icData.getD s 0) (fun _ s => tiltGas.icData.getD s 0) := by
  refine C73_uniform_start (.inr rfl) tilt slabGas tiltGas rfl (by simp [tiltGas]) ?_
  intro s hs
  have hS : s = 0 ∨ s = 1 ∨ s = 2 ∨ s = 3 ∨ s = 4 := by omega
  rcases hS with rfl | rfl | rfl | rfl | rfl
  · simp [Frame.state_zero, slabGas, tiltGas, tilt]
  · rw [Frame.state_mom _ _ (show 0 < 3 by norm_num), Frame.turn3 _ _ (by norm_num)]
    simp [slabGas, tiltGas, tilt]; norm_num
  · rw [Frame.state_mom _ _ (show 1 < 3 by norm_num), Frame.turn3 _ _ (by norm_num)]
    simp [slabGas, tiltGas, tilt]; norm_num
  · rw [Frame.state_mom _ _ (show 2 < 3 by norm_num), Frame.turn3 _ _ (by norm_num)]
    simp [slabGas, tiltGas, tilt]
  · rw [show (4 : ℕ) = 3 + 1 from rfl, Frame.state_energy]
    simp [slabGas, tiltGas, tilt]; norm_num

end DG
